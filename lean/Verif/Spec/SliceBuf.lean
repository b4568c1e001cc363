import Verif.Model.SliceBuf
/-
Terms of property C105: a buffer in memory as a value, and slices that writes to a buffer cannot reach.
-/
namespace Toku.SliceBuf
open Toku Toku.Slices

/-- The buffer as a value, as in Model/Buffer.lean. -/
def view (h : Heap UInt8) (b : Buf) : Buffer := ⟨b.seek, b.length, elems h b.data⟩

/-- A slice that writes to the buffer cannot reach: of another array, or ending where the buffer ends or before. -/
def Kept (h : Heap UInt8) (s t : Slice) : Prop := Ok h t ∧ (t.arr ≠ s.arr ∨ t.off + t.len ≤ s.off + s.len)

end Toku.SliceBuf
