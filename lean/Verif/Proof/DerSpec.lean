import Verif.Proof.Der
import Verif.Spec.Ecdsa
/-
The DER model against the DER specification.
-/
namespace Toku.Der
open Toku.Spec

theorem top_iff (c : UInt8) : c &&& 0x80 = 0x80 ↔ 128 ≤ c.toNat := by
  revert c; apply Base58.forall_uint8; decide +kernel

theorem top_iff' (c : UInt8) : c &&& 0x80 = 0 ↔ c.toNat < 128 := by
  revert c; apply Base58.forall_uint8; decide +kernel

theorem natOfBE_not (b : Bytes) : (natOfBE (b.map (~~~ ·)) : ℤ) = 256 ^ b.length - 1 - natOfBE b := by
  induction b with
  | nil => rfl
  | cons c b ih =>
    have hc : ((~~~ c).toNat : ℤ) = 255 - c.toNat := by
      revert c; apply Base58.forall_uint8; decide +kernel
    rw [List.map_cons, natOfBE_cons, natOfBE_cons, List.length_map]
    push_cast
    rw [hc, ih, List.length_cons, pow_succ]
    ring

/-- The integers accepted are those of the specification. -/
theorem parseInt_iff (c : Bytes) (x : ℤ) : parseInt c = .ok x ↔ IsInt x c := by
  cases c with
  | nil => constructor
           · intro h; cases h
           · rintro ⟨h, _⟩; exact absurd rfl h
  | cons a b =>
    have key : (∀ d t, b = d :: t → ¬ (a = 0x00 ∧ d.toNat < 128) ∧ ¬ (a = 0xff ∧ 128 ≤ d.toNat)) →
        parseInt (a :: b) = .ok (twosComplement (a :: b)) := by
      intro hm
      rcases top_cases a with ht | ht
      · rw [parseInt_pos ht]
        · unfold twosComplement
          dsimp only
          rw [if_neg (by have := (top_iff' a).mp ht; omega), sub_zero]
          rfl
        · intro h0
          cases b with
          | nil => exact Or.inl rfl
          | cons d t =>
            refine Or.inr ⟨d, t, rfl, ?_⟩
            rw [top_iff]
            by_contra hd
            exact (hm d t rfl).1 ⟨h0, by omega⟩
      · rw [parseInt_neg ht]
        · unfold twosComplement
          dsimp only
          rw [if_pos ((top_iff a).mp ht)]
          congr 1
          push_cast
          rw [natOfBE_not]
          change _ = (natOfBE (a :: b) : ℤ) - _
          ring
        · intro h0
          cases b with
          | nil => exact Or.inl rfl
          | cons d t =>
            refine Or.inr ⟨d, t, rfl, ?_⟩
            rw [top_iff']
            by_contra hd
            exact (hm d t rfl).2 ⟨h0, by omega⟩
    constructor
    · intro h
      have hm : ∀ d t, b = d :: t → ¬ (a = 0x00 ∧ d.toNat < 128) ∧ ¬ (a = 0xff ∧ 128 ≤ d.toNat) := by
        rintro d t rfl
        unfold parseInt at h
        dsimp only at h
        split at h
        · cases h
        rename_i hn
        rw [top_iff', top_iff] at hn
        exact ⟨fun hh => hn (Or.inl hh), fun hh => hn (Or.inr hh)⟩
      have e := key hm
      rw [h] at e
      refine ⟨by simp, (Res.ok.inj e).symm, ?_⟩
      intro a' d t e
      cases e
      exact hm d t rfl
    · rintro ⟨_, e, hm⟩
      rw [key (fun d t e => hm a d t (by rw [e])), e]

theorem isInt_iff (x : ℤ) (c : Bytes) : IsInt x c ↔ c = intContent x := by
  rw [← parseInt_iff]
  exact ⟨intContent_of_parse, fun h => h ▸ parseInt_intContent x⟩

theorem isLen_iff {n : ℕ} (hn : n < 2 ^ 31) (l : Bytes) : IsLen n l ↔ l = lenBytes n := by
  unfold IsLen lenBytes
  by_cases h : n < 128
  · rw [if_pos h]
    constructor
    · rintro (⟨_, e⟩ | ⟨h', _⟩)
      · exact e
      · omega
    · intro e; exact Or.inl ⟨h, e⟩
  · rw [if_neg h]
    dsimp only
    constructor
    · rintro (⟨h', _⟩ | ⟨_, c, b, e, hc, _, el⟩)
      · omega
      · have : natToBE n = c :: b := by rw [← e]; exact natToBE_of_head hc
        rw [this, el]
    · intro e
      right
      refine ⟨by omega, ?_⟩
      cases en : natToBE n with
      | nil => have := natToBE_nil en; omega
      | cons c b =>
        have h4 : (natToBE n).length ≤ 4 := natToBE_length_le (by omega)
        rw [en] at h4 e
        refine ⟨c, b, ?_, natToBE_head en, by omega, e⟩
        have := natOfBE_natToBE n
        rw [en] at this
        exact this

theorem element_iff {tag : UInt8} {c : Bytes} (hc : c.length < 2 ^ 31) (bs : Bytes) : Element tag c bs ↔ bs = tlv tag c := by
  unfold Element tlv
  constructor
  · rintro ⟨l, hl, rfl⟩
    rw [(isLen_iff hc l).mp hl]
  · rintro rfl
    exact ⟨_, (isLen_iff hc _).mpr rfl, rfl⟩

theorem tlv_length (tag : UInt8) (c : Bytes) : c.length ≤ (tlv tag c).length := by
  unfold tlv; simp only [List.length_cons, List.length_append]; omega

theorem element_length {tag : UInt8} {c bs : Bytes} (h : Element tag c bs) : c.length ≤ bs.length := by
  obtain ⟨l, _, rfl⟩ := h
  simp only [List.length_cons, List.length_append]; omega

/-- The DER form of a pair is unique and is what `marshal` writes. -/
theorem derSignature_iff (r s : ℤ) (bs : Bytes) (h : bs.length < 2 ^ 31) : DerSignature r s bs ↔ bs = marshal r s := by
  unfold DerSignature marshal
  constructor
  · rintro ⟨rc, sc, re, se, hr, hs, er, es, e⟩
    have l1 := element_length e
    have l2 := element_length er
    have l3 := element_length es
    rw [List.length_append] at l1
    rw [isInt_iff] at hr hs
    rw [element_iff (by omega)] at er es
    rw [element_iff (by rw [List.length_append]; omega)] at e
    rw [e, er, es, hr, hs]
  · intro e
    have l1 := tlv_length 0x30 (tlv 2 (intContent r) ++ tlv 2 (intContent s))
    have l2 := tlv_length 2 (intContent r)
    have l3 := tlv_length 2 (intContent s)
    rw [e] at h
    have l4 := l1
    rw [List.length_append] at l4
    exact ⟨_, _, _, _, (isInt_iff r _).mpr rfl, (isInt_iff s _).mpr rfl, (element_iff (by omega) _).mpr rfl,
      (element_iff (by omega) _).mpr rfl, (element_iff (by omega) _).mpr e⟩

/-! ### sizes -/

theorem lenBytes_mono {a b : ℕ} (h : a ≤ b) : (lenBytes a).length ≤ (lenBytes b).length := by
  unfold lenBytes
  split
  · split <;> simp
  · rw [if_neg (by omega)]
    dsimp only
    rw [List.length_cons, List.length_cons]
    have hb := natOfBE_natToBE b
    have hlt := natOfBE_lt (natToBE b)
    rw [hb] at hlt
    have := natToBE_length_le (n := a) (lt_of_le_of_lt h hlt)
    omega

theorem intContent_length {x : ℤ} (h0 : 0 ≤ x) {k : ℕ} (h : x < 128 * 256 ^ k) : 1 ≤ (intContent x).length ∧ (intContent x).length ≤ k + 1 := by
  unfold intContent
  rw [if_neg (by omega)]
  dsimp only
  have hm : ((x.toNat : ℕ) : ℤ) = x := Int.toNat_of_nonneg h0
  generalize x.toNat = m at hm
  have hl : (natToBE m).length ≤ k + 1 := by
    apply natToBE_length_le
    have hp : 0 < 256 ^ k := Nat.pow_pos (by decide)
    have : (m : ℤ) < ((128 * 256 ^ k : ℕ) : ℤ) := by rw [hm]; push_cast; exact h
    rw [pow_succ]
    omega
  cases e : natToBE m with
  | nil => simp
  | cons c b =>
    rw [e] at hl
    dsimp only
    split
    · exact ⟨by simp, hl⟩
    · rename_i ht
      refine ⟨by simp, ?_⟩
      have ht := (top_iff c).mp ((top_cases c).resolve_left ht)
      rw [List.length_cons]
      -- a full first byte leaves no room for a k+1-byte number below 128 * 256^k
      have hv := natOfBE_natToBE m
      rw [e, natOfBE_cons] at hv
      by_contra hk
      have hkb : b.length = k := by simp only [List.length_cons] at hl hk; omega
      have hmm : m < 128 * 256 ^ k := by
        have : (m : ℤ) < ((128 * 256 ^ k : ℕ) : ℤ) := by rw [hm]; push_cast; exact h
        exact_mod_cast this
      rw [hkb] at hv
      have := Nat.mul_le_mul_right (256 ^ k) ht
      omega

theorem marshal_length {r s : ℤ} {a b : ℕ} (ha : 1 ≤ (intContent r).length ∧ (intContent r).length ≤ a)
    (hb : 1 ≤ (intContent s).length ∧ (intContent s).length ≤ b) (hab : a + b + 4 < 128) :
    8 ≤ (marshal r s).length ∧ (marshal r s).length ≤ a + b + 6 := by
  have short : ∀ (t : UInt8) (c : Bytes), c.length < 128 → (tlv t c).length = c.length + 2 := by
    intro t c hc
    unfold tlv lenBytes
    rw [if_pos hc]
    simp only [List.length_cons, List.length_append, List.length_nil]; omega
  unfold marshal
  have l1 := short 2 (intContent r) (by omega)
  have l2 := short 2 (intContent s) (by omega)
  rw [short _ _ (by rw [List.length_append]; omega), List.length_append]
  omega

end Toku.Der
