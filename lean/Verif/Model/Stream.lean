import Verif.Model.Protocol
import Mathlib.Logic.Function.Basic
/-
xprotocol/stream.go as several goroutines use it: one `Stream` at each end of a connection, with its mutex.

A goroutine is a number. What it does between calls is not modelled; it may call ReadMessage or WriteMessage whenever it
is not in a call. sync.Mutex excludes, and makes no promise about who is next. The writer of a stream (bufio.Writer over
net.Conn) puts the bytes handed to it on the wire in pieces of any size and in order; if it fails it stays failed
(bufio.Writer keeps its error), which is `broken`; a write may also fail before anything is sent (stream.go:106). A read that
fails has thrown away what it had read so far (stream.go:66-90), which may be nothing. Deadlines pass at any time.
Modelled calls: stream.go:63-128; the bytes a message encodes to are computed when the lock is taken, as in the code
(stream.go:116).
-/
namespace Toku.Stream
open Toku.Protocol

/-- Where a goroutine is. -/
inductive Proc where
  | idle
  | wantWrite (m : Msg)                   -- in s.mutex.Lock(), stream.go:104
  | writing (m : Msg) (rest : Bytes)      -- bytes of the frame not yet on the wire, stream.go:106-127
  | wantRead                              -- in s.mutex.Lock(), stream.go:64
  | reading                               -- stream.go:66-99
  deriving DecidableEq, Repr

/-- One end of a connection. -/
structure End where
  holder : Option Nat                     -- who holds s.mutex
  procs : Nat → Proc
  sent : Bytes                            -- all bytes put on the wire so far
  broken : Bool                           -- the writer has failed
  input : Bytes                           -- bytes that have arrived and were not consumed

/-- NewStream, stream.go:53-60, with nobody using it yet. -/
def End.init : End := ⟨none, fun _ => .idle, [], false, []⟩

def End.set (s : End) (t : Nat) (p : Proc) : End := { s with procs := Function.update s.procs t p }

/-- What happens at one end. -/
inductive Act where
  | callWrite (t : Nat) (m : Msg)
  | callRead (t : Nat)
  | lock (t : Nat)
  | put (t : Nat) (n : Nat)               -- `n` more bytes go on the wire
  | wrote (t : Nat) (m : Msg)             -- WriteMessage returns nil
  | writeFailed (t : Nat) (m : Msg)       -- WriteMessage returns an error
  | read (t : Nat) (r : Res Msg)          -- ReadMessage returns, having consumed a whole frame
  | readFailed (t : Nat)                  -- ReadMessage returns an error: deadline passed or connection closed
  | arrive (bs : Bytes)                   -- bytes from the peer

/-- One step at one end of a connection for the network with this magic. -/
inductive Step [Hashes] (magic : Bytes) : End → Act → End → Prop where
  | callWrite (s : End) (t : Nat) (m : Msg) : s.procs t = .idle →
      Step magic s (.callWrite t m) (s.set t (.wantWrite m))
  | callRead (s : End) (t : Nat) : s.procs t = .idle → Step magic s (.callRead t) (s.set t .wantRead)
  | lockWrite (s : End) (t : Nat) (m : Msg) : s.procs t = .wantWrite m → s.holder = none →
      Step magic s (.lock t) { s.set t (.writing m (frame magic m)) with holder := some t }
  | lockRead (s : End) (t : Nat) : s.procs t = .wantRead → s.holder = none →
      Step magic s (.lock t) { s.set t .reading with holder := some t }
  | put (s : End) (t : Nat) (m : Msg) (rest : Bytes) (n : Nat) : s.procs t = .writing m rest → s.broken = false →
      0 < n → n ≤ rest.length →
      Step magic s (.put t n) { s.set t (.writing m (rest.drop n)) with sent := s.sent ++ rest.take n }
  | wrote (s : End) (t : Nat) (m : Msg) : s.procs t = .writing m [] → s.broken = false →
      Step magic s (.wrote t m) { s.set t .idle with holder := none }
  | writeFailed (s : End) (t : Nat) (m : Msg) (rest : Bytes) : s.procs t = .writing m rest →
      Step magic s (.writeFailed t m) { s.set t .idle with holder := none, broken := true }
  | writeRefused (s : End) (t : Nat) (m : Msg) : s.procs t = .writing m (frame magic m) →
      Step magic s (.writeFailed t m) { s.set t .idle with holder := none }
  | read (s : End) (t : Nat) (p : Bytes × Bytes × Bytes × Bytes) (rest : Bytes) : s.procs t = .reading →
      readParts s.input = some (p, rest) →
      Step magic s (.read t (openFrame magic p)) { s.set t .idle with holder := none, input := rest }
  | readFailed (s : End) (t : Nat) (k : Nat) : s.procs t = .reading →
      Step magic s (.readFailed t) { s.set t .idle with holder := none, input := s.input.drop k }
  | arrive (s : End) (bs : Bytes) : Step magic s (.arrive bs) { s with input := s.input ++ bs }

/-- A run at one end: the steps from one state to another. -/
inductive Run [Hashes] (magic : Bytes) : End → List Act → End → Prop where
  | refl (s : End) : Run magic s [] s
  | snoc {s s' s'' : End} {as : List Act} {a : Act} : Run magic s as s' → Step magic s' a s'' → Run magic s (as ++ [a]) s''

/-- Two peers: each has an end, and counts how many of the other's bytes have arrived. -/
structure Net where
  a : End
  b : End
  toA : Nat
  toB : Nat

def Net.init : Net := ⟨.init, .init, 0, 0⟩

/-- Who does something. -/
inductive Who where
  | a | b
  deriving DecidableEq

/-- One step of two peers: a step of one of them, where the bytes that arrive are the next ones the other has put on the
wire. -/
inductive NetStep [Hashes] (magic : Bytes) : Net → Who → Act → Net → Prop where
  | a (n : Net) (act : Act) (e : End) : Step magic n.a act e → (∀ bs, act ≠ .arrive bs) →
      NetStep magic n .a act { n with a := e }
  | b (n : Net) (act : Act) (e : End) : Step magic n.b act e → (∀ bs, act ≠ .arrive bs) →
      NetStep magic n .b act { n with b := e }
  | arriveA (n : Net) (k : Nat) (e : End) : 0 < k → n.toA + k ≤ n.b.sent.length →
      Step magic n.a (.arrive ((n.b.sent.drop n.toA).take k)) e →
      NetStep magic n .a (.arrive ((n.b.sent.drop n.toA).take k)) { n with a := e, toA := n.toA + k }
  | arriveB (n : Net) (k : Nat) (e : End) : 0 < k → n.toB + k ≤ n.a.sent.length →
      Step magic n.b (.arrive ((n.a.sent.drop n.toB).take k)) e →
      NetStep magic n .b (.arrive ((n.a.sent.drop n.toB).take k)) { n with b := e, toB := n.toB + k }

/-- A run of two peers. -/
inductive NetRun [Hashes] (magic : Bytes) : Net → List (Who × Act) → Net → Prop where
  | refl (n : Net) : NetRun magic n [] n
  | snoc {n n' n'' : Net} {as : List (Who × Act)} {w : Who} {a : Act} : NetRun magic n as n' → NetStep magic n' w a n'' →
      NetRun magic n (as ++ [(w, a)]) n''

end Toku.Stream
