import Verif.Model.ScriptAddress
import Verif.Props.Address
import Verif.Props.Locking
/-
Property C134: the address of a locking script.
-/
namespace Toku.Props
open Toku Toku.Spec Toku.Address Toku.Locking

private theorem hashLen_eq (k : Locking.Kind) : hashLen k = hashSize k := by cases k <;> rfl

/-- **C134.** A byte string that is parsed as a locking script has an address. The locking script of this address is the byte string, and so is
that of the address which is read from its text, on either network. -/
theorem C134_script [Hashes] (script : Bytes) (hl : script.length < 2 ^ 62) (s : LockScript) (h : parse script = .ok s) :
    ∃ a, ofScript s = some a ∧ lockingScript a = script ∧
      ∀ net, net = mainNet ∨ net = testNet → ∃ b, Address.decode (text a net) net = .ok b ∧ lockingScript b = script := by
  have hh := ((C29_parse_iff script hl s).mp h).1
  have e : lockingScript ⟨s.kind, s.hash⟩ = script := C29_build_parse script hl s h
  refine ⟨⟨s.kind, s.hash⟩, ?_, e, fun net hn => ⟨_, C31_roundtrip net hn s.kind s.hash hh, e⟩⟩
  unfold ofScript make
  rw [if_pos (hh.trans (hashLen_eq _).symm)]

/-- **C134.** What a text pays to is recognised: if an address is read from a text, its locking script is parsed, and the address of the parsed
script is that address. -/
theorem C134_text [Hashes] (t : Bytes) (net : Network) (a : Addr) (h : Address.decode t net = .ok a) :
    ∃ s, parse (lockingScript a) = .ok s ∧ ofScript s = some a := by
  have ha : a.hash.length = hashSize a.kind := by
    have base : ∀ {t a}, decodeBase58 t net = .ok a → a.hash.length = hashSize a.kind := by
      intro t a h
      unfold decodeBase58 at h
      split at h
      · cases h
      · cases h
      · split at h
        · rename_i hd
          split at h
          · cases h; exact hd
          · split at h
            · cases h; exact hd
            · cases h
        · cases h
    unfold Address.decode at h
    split at h
    · obtain ⟨⟨hrp, v, p⟩, _, h⟩ := Res.bind_eq_ok.mp h
      dsimp only at h
      split at h
      · split at h
        · rename_i hp; cases h; exact hp
        · split at h
          · rename_i hp; cases h; exact hp
          · exact base h
      · cases h
    · exact base h
  refine ⟨⟨a.kind, a.hash⟩, C29_parse_build a.kind a.hash ha, ?_⟩
  unfold ofScript make
  rw [if_pos (ha.trans (hashLen_eq _).symm)]

/-- **C134.** Different locking scripts have different addresses, and different texts on each network. -/
theorem C134_different [Hashes] (x y : Bytes) (hx : x.length < 2 ^ 62) (hy : y.length < 2 ^ 62) (s s' : LockScript) (a a' : Addr)
    (h : parse x = .ok s) (h' : parse y = .ok s') (ha : ofScript s = some a) (ha' : ofScript s' = some a')
    (net : Network) (hn : net = mainNet ∨ net = testNet) (e : text a net = text a' net) : x = y := by
  obtain ⟨b, hb, _, hd⟩ := C134_script x hx s h
  obtain ⟨b', hb', _, hd'⟩ := C134_script y hy s' h'
  rw [ha] at hb
  rw [ha'] at hb'
  cases hb
  cases hb'
  obtain ⟨c, hc, rfl⟩ := hd net hn
  obtain ⟨c', hc', rfl⟩ := hd' net hn
  rw [e, hc'] at hc
  cases hc
  rfl

/-- **C134.** The address of a script made with a constructor is nil exactly if the hash does not have the length for its kind. -/
theorem C134_nil (k : Locking.Kind) (hash : Bytes) : ofScript ⟨k, hash⟩ = none ↔ hash.length ≠ hashSize k := by
  unfold ofScript make
  rw [hashLen_eq]
  split <;> simp [*]

/-- A P2SH script has an address, the one with the same hash. -/
example : parse (0xa9 :: 0x14 :: (List.replicate 20 7 ++ [0x87])) = .ok ⟨.p2sh, List.replicate 20 7⟩ ∧
    ofScript ⟨.p2sh, List.replicate 20 7⟩ = some ⟨.p2sh, List.replicate 20 7⟩ := by
  decide +kernel

end Toku.Props
