import Verif.Model.Stream
/-
xprotocol/connection.go: a connection with its read loop, used by several goroutines.

Goroutine 0 runs ReadLoop; the handlers run in it (connection.go:48, 50). Any goroutine, the handlers included, may call Send and Close.
The other goroutines do not read: the stream is a private field. A handler may do anything and take any time; what it does besides Send
and Close is not modelled. The addresses of the two ends (connection.go:54-61) are not modelled.
-/
namespace Toku.Connection
open Toku.Protocol Toku.Stream

/-- Where ReadLoop is. -/
inductive Loop where
  | notStarted
  | waiting                     -- in ReadMessage, before it has the lock, connection.go:43, stream.go:64
  | reading (late : Bool)       -- in ReadMessage, with the lock; `late` if the connection was closed before it set the deadline
  | handling (m : Msg)          -- in onReceive, connection.go:48
  | leaving                     -- in onDisconnect, connection.go:50
  | done
  | crashed                     -- a panic in ReadMessage, not recovered: the process is gone
  deriving DecidableEq, Repr

/-- xprotocol/connection.go:22-27 -/
structure Conn where
  e : End
  loop : Loop
  closed : Bool

/-- NewConnection, connection.go:30-37 -/
def Conn.init : Conn := ⟨End.init, .notStarted, false⟩

/-- The steps of WriteMessage in goroutine `t`. -/
inductive Sends (t : Nat) : Act → Prop where
  | call (m : Msg) : Sends t (.callWrite t m)
  | lock : Sends t (.lock t)
  | put (n : Nat) : Sends t (.put t n)
  | wrote (m : Msg) : Sends t (.wrote t m)
  | failed (m : Msg) : Sends t (.writeFailed t m)

/-- What happens at a connection. -/
inductive CAct where
  | start                       -- `go c.ReadLoop()`
  | lock                        -- ReadMessage gets the lock
  | deliver (m : Msg)           -- ReadMessage returns a message, onReceive is called
  | refused                     -- ReadMessage returns an error about a frame, onDisconnect is called
  | lost                        -- ReadMessage returns an error of the connection, onDisconnect is called
  | crash
  | handler (a : Act)           -- a step of Send in a handler
  | next                        -- onReceive returns, the loop goes on
  | leave                       -- onDisconnect returns, the loop ends
  | other (t : Nat) (a : Act)   -- a step of Send in another goroutine
  | arrive (bs : Bytes)
  | close                       -- Close, by anybody, connection.go:69-71

/-- One step of a connection for the network with this magic. On a closed connection nothing arrives, no byte can be written, and
SetReadDeadline fails, so that a call of ReadMessage that has not set the deadline yet returns an error (stream.go:66); one that has may
still find a whole frame in the buffer of its reader. -/
inductive CStep [Hashes] (magic : Bytes) : Conn → CAct → Conn → Prop where
  | start (c : Conn) (e : End) : c.loop = .notStarted → Step magic c.e (.callRead 0) e →
      CStep magic c .start { c with e := e, loop := .waiting }
  | lock (c : Conn) (e : End) : c.loop = .waiting → Step magic c.e (.lock 0) e →
      CStep magic c .lock { c with e := e, loop := .reading c.closed }
  | deliver (c : Conn) (e : End) (m : Msg) : c.loop = .reading false → Step magic c.e (.read 0 (.ok m)) e →
      CStep magic c (.deliver m) { c with e := e, loop := .handling m }
  | refused (c : Conn) (e : End) (x : Err) : c.loop = .reading false → Step magic c.e (.read 0 (.err x)) e →
      CStep magic c .refused { c with e := e, loop := .leaving }
  | crash (c : Conn) (e : End) : c.loop = .reading false → Step magic c.e (.read 0 .panic) e →
      CStep magic c .crash { c with e := e, loop := .crashed }
  | lost (c : Conn) (e : End) (late : Bool) : c.loop = .reading late → Step magic c.e (.readFailed 0) e →
      CStep magic c .lost { c with e := e, loop := .leaving }
  | handler (c : Conn) (e : End) (a : Act) : ((∃ m, c.loop = .handling m) ∨ c.loop = .leaving) → Sends 0 a →
      (c.closed = true → ∀ n, a ≠ .put 0 n) → Step magic c.e a e → CStep magic c (.handler a) { c with e := e }
  | next (c : Conn) (e : End) (m : Msg) : c.loop = .handling m → Step magic c.e (.callRead 0) e →
      CStep magic c .next { c with e := e, loop := .waiting }
  | leave (c : Conn) : c.loop = .leaving → c.e.procs 0 = .idle → CStep magic c .leave { c with loop := .done }
  | other (c : Conn) (e : End) (t : Nat) (a : Act) : c.loop ≠ .crashed → t ≠ 0 → Sends t a →
      (c.closed = true → ∀ n, a ≠ .put t n) → Step magic c.e a e → CStep magic c (.other t a) { c with e := e }
  | arrive (c : Conn) (e : End) (bs : Bytes) : c.loop ≠ .crashed → c.closed = false → Step magic c.e (.arrive bs) e →
      CStep magic c (.arrive bs) { c with e := e }
  | close (c : Conn) : c.loop ≠ .crashed → CStep magic c .close { c with closed := true }

/-- A run of a connection. -/
inductive CRun [Hashes] (magic : Bytes) : Conn → List CAct → Conn → Prop where
  | refl (c : Conn) : CRun magic c [] c
  | snoc {c c' c'' : Conn} {as : List CAct} {a : CAct} : CRun magic c as c' → CStep magic c' a c'' → CRun magic c (as ++ [a]) c''

end Toku.Connection
