import Verif.Model.Connection
/-
Two connections (xprotocol/connection.go), one at each end of the same wire, each with its read loop, its handlers and goroutines that send.
-/
namespace Toku.Connection
open Toku.Protocol Toku.Stream

/-- Two connected peers: each has a connection, and counts how many of the other's bytes have arrived. connection.go:22-27 at both ends; the
net.Conn below (connection.go:23) is not of this project: it delivers the bytes in order, in any pieces, at any time, or fails. -/
structure Link where
  a : Conn
  b : Conn
  toA : Nat
  toB : Nat

/-- Both have called NewConnection, connection.go:30-37. -/
def Link.init : Link := ⟨.init, .init, 0, 0⟩

/-- One step of two peers: a step of one of them, where the bytes that arrive are the next ones the other has put on the wire. Close at one
end (connection.go:69-71) may be seen at the other as an error of a read at any time, `lost`. -/
inductive LStep [Hashes] (magic : Bytes) : Link → Who → CAct → Link → Prop where
  | a (l : Link) (act : CAct) (c : Conn) : CStep magic l.a act c → (∀ bs, act ≠ .arrive bs) → LStep magic l .a act { l with a := c }
  | b (l : Link) (act : CAct) (c : Conn) : CStep magic l.b act c → (∀ bs, act ≠ .arrive bs) → LStep magic l .b act { l with b := c }
  | arriveA (l : Link) (k : Nat) (c : Conn) : 0 < k → l.toA + k ≤ l.b.e.sent.length →
      CStep magic l.a (.arrive ((l.b.e.sent.drop l.toA).take k)) c →
      LStep magic l .a (.arrive ((l.b.e.sent.drop l.toA).take k)) { l with a := c, toA := l.toA + k }
  | arriveB (l : Link) (k : Nat) (c : Conn) : 0 < k → l.toB + k ≤ l.a.e.sent.length →
      CStep magic l.b (.arrive ((l.a.e.sent.drop l.toB).take k)) c →
      LStep magic l .b (.arrive ((l.a.e.sent.drop l.toB).take k)) { l with b := c, toB := l.toB + k }

/-- A run of two peers. -/
inductive LRun [Hashes] (magic : Bytes) : Link → List (Who × CAct) → Link → Prop where
  | refl (l : Link) : LRun magic l [] l
  | snoc {l l' l'' : Link} {as : List (Who × CAct)} {w : Who} {a : CAct} : LRun magic l as l' → LStep magic l' w a l'' →
      LRun magic l (as ++ [(w, a)]) l''

end Toku.Connection
