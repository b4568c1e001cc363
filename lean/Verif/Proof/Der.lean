import Verif.Model.Der
import Verif.Proof.Big
import Verif.Proof.Base58
/-
Round trips of the DER model.
-/
namespace Toku.Der

theorem natOfBE_cons (c : UInt8) (b : Bytes) : natOfBE (c :: b) = c.toNat * 256 ^ b.length + natOfBE b := by
  rw [← List.singleton_append, natOfBE_append]
  simp [natOfBE]

/-- Bytes without leading zero are the bytes of the number they spell. -/
theorem natToBE_of_head {c : UInt8} {b : Bytes} (hc : c ≠ 0) : natToBE (natOfBE (c :: b)) = c :: b := by
  have h := pad_natToBE_natOfBE (c :: b)
  cases e : (c :: b).length - (natToBE (natOfBE (c :: b))).length with
  | zero => rw [e] at h; exact h
  | succ n =>
    rw [e, List.replicate_succ, List.cons_append] at h
    injection h with h _
    exact absurd h.symm hc

theorem natToBE_head {n : ℕ} {c : UInt8} {b : Bytes} (h : natToBE n = c :: b) : c ≠ 0 := by
  rintro rfl
  have h1 := natOfBE_natToBE n
  rw [h] at h1
  have h2 : natOfBE b = n := by
    rw [natOfBE_cons] at h1; simpa using h1
  have h3 : (natToBE n).length ≤ b.length := natToBE_length_le (by rw [← h2]; exact natOfBE_lt b)
  rw [h] at h3
  simp at h3

theorem natToBE_nil {n : ℕ} (h : natToBE n = []) : n = 0 := by
  have := natOfBE_natToBE n
  rw [h] at this
  exact this.symm

theorem natToBE_zero : natToBE 0 = [] := rfl

theorem not_not' (c : UInt8) : ~~~ (~~~ c) = c := by
  revert c; apply Base58.forall_uint8; decide +kernel

theorem map_not_not (b : Bytes) : (b.map (~~~ ·)).map (~~~ ·) = b := by
  rw [List.map_map]
  conv_rhs => rw [← List.map_id b]
  apply List.map_congr_left
  intro c _
  exact not_not' c

theorem top_cases (c : UInt8) : c &&& 0x80 = 0 ∨ c &&& 0x80 = 0x80 := by
  revert c; apply Base58.forall_uint8; decide +kernel

theorem not_top (c : UInt8) : (~~~ c) &&& 0x80 = 0 ↔ c &&& 0x80 = 0x80 := by
  revert c; apply Base58.forall_uint8; decide +kernel

theorem not_top' (c : UInt8) : (~~~ c) &&& 0x80 = 0x80 ↔ c &&& 0x80 = 0 := by
  revert c; apply Base58.forall_uint8; decide +kernel

theorem not_zero (c : UInt8) : ~~~ c = 0xff ↔ c = 0 := by
  revert c; apply Base58.forall_uint8; decide +kernel

theorem not_ff (c : UInt8) : ~~~ c = 0 ↔ c = 0xff := by
  revert c; apply Base58.forall_uint8; decide +kernel

theorem parseInt_pos {c : UInt8} {b : Bytes} (ht : c &&& 0x80 = 0) (hz : c = 0 → b = [] ∨ ∃ d t, b = d :: t ∧ d &&& 0x80 = 0x80) :
    parseInt (c :: b) = .ok (natOfBE (c :: b) : ℕ) := by
  cases b with
  | nil =>
    simp only [parseInt, if_pos ht]
    simp [natOfBE]
  | cons d rest =>
    unfold parseInt
    dsimp only
    rw [if_neg, if_neg]
    · rw [ht]; decide
    · rintro (⟨h1, h2⟩ | ⟨h1, h2⟩)
      · rcases hz h1 with h | ⟨d', t, h, h3⟩
        · cases h
        · cases h; rw [h2] at h3; revert h3; decide
      · rw [h1] at ht; revert ht; decide

theorem parseInt_neg {c : UInt8} {b : Bytes} (ht : c &&& 0x80 = 0x80) (hz : c = 0xff → b = [] ∨ ∃ d t, b = d :: t ∧ d &&& 0x80 = 0) :
    parseInt (c :: b) = .ok (-(natOfBE ((c :: b).map (~~~ ·)) + 1 : ℕ)) := by
  have h0 : ¬ c &&& 0x80 = 0 := by rw [ht]; decide
  cases b with
  | nil =>
    simp only [parseInt, if_neg h0]
    simp [natOfBE]
  | cons d rest =>
    unfold parseInt
    dsimp only
    rw [if_neg, if_pos ht]
    rintro (⟨h1, h2⟩ | ⟨h1, h2⟩)
    · rw [h1] at ht; revert ht; decide
    · rcases hz h1 with h | ⟨d', t, h, h3⟩
      · cases h
      · cases h; rw [h2] at h3; revert h3; decide

/-- The integer encoding is read back. -/
theorem parseInt_intContent (x : ℤ) : parseInt (intContent x) = .ok x := by
  unfold intContent
  split
  · rename_i hx
    dsimp only
    have hm : (((-x - 1).toNat : ℕ) : ℤ) = -x - 1 := Int.toNat_of_nonneg (by omega)
    generalize (-x - 1).toNat = m at hm
    have hb := natOfBE_natToBE m
    cases e : natToBE m with
    | nil =>
      rw [natToBE_nil e] at hm
      have : x = -1 := by push_cast at hm; omega
      rw [this]; decide
    | cons c b =>
      have hc := natToBE_head e
      rw [e] at hb
      rw [List.map_cons]
      dsimp only
      split
      · rename_i ht
        rw [parseInt_neg (by decide) (fun _ => Or.inr ⟨_, _, rfl, ht⟩)]
        rw [List.map_cons, List.map_cons, map_not_not, not_not', natOfBE_cons, hb]
        congr 1
        have : (~~~ (0xff : UInt8)).toNat = 0 := by decide
        rw [this]; push_cast; omega
      · rename_i ht
        have ht := (top_cases _).resolve_left ht
        rw [parseInt_neg ht (fun h => absurd ((not_zero c).mp h) hc)]
        rw [List.map_cons, map_not_not, not_not', hb]
        congr 1
        push_cast; omega
  · rename_i hx
    dsimp only
    have hm : ((x.toNat : ℕ) : ℤ) = x := Int.toNat_of_nonneg (by omega)
    generalize x.toNat = m at hm
    have hb := natOfBE_natToBE m
    cases e : natToBE m with
    | nil =>
      rw [natToBE_nil e] at hm
      rw [← hm]; decide
    | cons c b =>
      have hc := natToBE_head e
      rw [e] at hb
      dsimp only
      split
      · rename_i ht
        rw [parseInt_pos ht (fun h => absurd h hc), hb, hm]
      · rename_i ht
        have ht := (top_cases _).resolve_left ht
        rw [parseInt_pos (by decide) (fun _ => Or.inr ⟨_, _, rfl, ht⟩), natOfBE_cons, hb, ← hm]
        simp

/-- Only the encoding of the integer is accepted. -/
theorem intContent_of_parse {bs : Bytes} {x : ℤ} (h : parseInt bs = .ok x) : bs = intContent x := by
  cases bs with
  | nil => cases h
  | cons c b =>
    rcases top_cases c with ht | ht
    · have hz : c = 0 → b = [] ∨ ∃ d t, b = d :: t ∧ d &&& 0x80 = 0x80 := by
        intro hc
        cases b with
        | nil => exact Or.inl rfl
        | cons d t =>
          right
          refine ⟨d, t, rfl, ?_⟩
          by_contra hd
          have hd := (top_cases d).resolve_right hd
          unfold parseInt at h
          dsimp only at h
          rw [if_pos (Or.inl ⟨hc, hd⟩)] at h
          cases h
      rw [parseInt_pos ht hz] at h
      have h := Res.ok.inj h
      subst h
      unfold intContent
      rw [if_neg (by omega)]
      dsimp only
      rw [Int.toNat_natCast]
      by_cases hc : c = 0
      · subst hc
        rcases hz rfl with rfl | ⟨d, t, rfl, hd⟩
        · decide
        · have hd0 : d ≠ 0 := by rintro rfl; revert hd; decide
          have : natOfBE (0 :: d :: t) = natOfBE (d :: t) := by rw [natOfBE_cons]; simp
          rw [this, natToBE_of_head hd0]
          dsimp only
          rw [if_neg (by rw [hd]; decide)]
      · rw [natToBE_of_head hc]
        dsimp only
        rw [if_pos ht]
    · have hz : c = 0xff → b = [] ∨ ∃ d t, b = d :: t ∧ d &&& 0x80 = 0 := by
        intro hc
        cases b with
        | nil => exact Or.inl rfl
        | cons d t =>
          right
          refine ⟨d, t, rfl, ?_⟩
          by_contra hd
          have hd := (top_cases d).resolve_left hd
          unfold parseInt at h
          dsimp only at h
          rw [if_pos (Or.inr ⟨hc, hd⟩)] at h
          cases h
      rw [parseInt_neg ht hz] at h
      have h := Res.ok.inj h
      subst h
      unfold intContent
      rw [if_pos (by omega)]
      dsimp only
      generalize hm : natOfBE ((c :: b).map (~~~ ·)) = m
      have : (-(-((m + 1 : ℕ) : ℤ)) - 1).toNat = m := by omega
      rw [this, ← hm]
      by_cases hc : c = 0xff
      · subst hc
        rcases hz rfl with rfl | ⟨d, t, rfl, hd⟩
        · decide
        · have hd0 : ~~~ d ≠ 0 := by
            intro e
            rw [(not_ff d).mp e] at hd
            revert hd; decide
          have e : natOfBE ((0xff :: d :: t).map (~~~ ·)) = natOfBE ((~~~ d) :: t.map (~~~ ·)) := by
            rw [List.map_cons, List.map_cons, natOfBE_cons]
            have : (~~~ (0xff : UInt8)).toNat = 0 := by decide
            rw [this]; simp
          rw [e, natToBE_of_head hd0, List.map_cons, map_not_not, not_not']
          dsimp only
          rw [if_pos hd]
      · have hc0 : ~~~ c ≠ 0 := fun e => hc ((not_ff c).mp e)
        rw [List.map_cons, natToBE_of_head hc0, List.map_cons, map_not_not, not_not']
        dsimp only
        rw [if_neg (by rw [ht]; decide)]

/-! ### lengths -/

theorem longLen_ok (rest : Bytes) : ∀ (b : Bytes) (acc : ℕ), acc * 256 ^ b.length + natOfBE b < 2 ^ 31 →
    128 ≤ acc * 256 ^ b.length + natOfBE b → (acc = 0 → ∀ c t, b = c :: t → c ≠ 0) →
    longLen b.length acc (b ++ rest) = .ok (acc * 256 ^ b.length + natOfBE b, rest) := by
  intro b
  induction b with
  | nil =>
    intro acc h1 h2 _
    have h2 : 128 ≤ acc := by simpa [natOfBE] using h2
    simp only [List.length_nil, List.nil_append, longLen]
    rw [if_neg (by omega)]
    simp [natOfBE]
  | cons c b ih =>
    intro acc h1 h2 h3
    have e : acc * 256 ^ (c :: b).length + natOfBE (c :: b) = (acc * 256 + c.toNat) * 256 ^ b.length + natOfBE b := by
      rw [natOfBE_cons, List.length_cons, pow_succ]; ring
    rw [e] at h1 h2 ⊢
    have hpos : 1 ≤ 256 ^ b.length := Nat.one_le_pow _ _ (by decide)
    have hacc : acc * 256 + c.toNat < 2 ^ 31 := by
      have : (acc * 256 + c.toNat) * 1 ≤ (acc * 256 + c.toNat) * 256 ^ b.length := Nat.mul_le_mul_left _ hpos
      omega
    have hne : acc * 256 + c.toNat ≠ 0 := by
      intro h0
      have h0a : acc = 0 := by omega
      have h0c : c.toNat = 0 := by omega
      exact h3 h0a c b rfl (UInt8.toNat_inj.mp (by simpa using h0c))
    rw [List.length_cons, List.cons_append]
    unfold longLen
    rw [if_neg (by omega)]
    dsimp only
    rw [if_neg hne]
    exact ih _ h1 h2 (fun h => absurd h hne)

theorem longLen_inv : ∀ (n acc : ℕ) (bs : Bytes) (len : ℕ) (rest : Bytes), longLen n acc bs = .ok (len, rest) →
    (n = 0 → acc < 2 ^ 31) → ∃ b, bs = b ++ rest ∧ b.length = n ∧ len = acc * 256 ^ n + natOfBE b ∧ 128 ≤ len ∧ len < 2 ^ 31 ∧
      (acc = 0 → ∀ c t, b = c :: t → c ≠ 0) := by
  intro n
  induction n with
  | zero =>
    intro acc bs len rest h hacc
    unfold longLen at h
    split at h
    · cases h
    cases h
    refine ⟨[], rfl, rfl, by simp [natOfBE], by omega, hacc rfl, ?_⟩
    intro _ c t h; cases h
  | succ n ih =>
    intro acc bs len rest h _
    cases bs with
    | nil => cases h
    | cons c bs =>
      unfold longLen at h
      split at h
      · cases h
      rename_i hlt
      dsimp only at h
      split at h
      · cases h
      rename_i hne
      have hc := c.toNat_lt
      obtain ⟨b, e1, e2, e3, e4, e5, _⟩ := ih _ _ _ _ h (fun _ => by omega)
      refine ⟨c :: b, by rw [e1]; rfl, by rw [List.length_cons, e2], ?_, e4, e5, ?_⟩
      · rw [e3, natOfBE_cons, e2, pow_succ]; ring
      · intro h0 c' t h hz
        cases h
        rw [h0, hz] at hne
        exact hne rfl

theorem lenMask (n : ℕ) (h : n < 128) : (UInt8.ofNat (0x80 + n) &&& 0x80 ≠ 0) ∧ (UInt8.ofNat (0x80 + n) &&& 0x7f).toNat = n := by
  have : ∀ n < 128, (UInt8.ofNat (0x80 + n) &&& 0x80 ≠ 0) ∧ (UInt8.ofNat (0x80 + n) &&& 0x7f).toNat = n := by decide +kernel
  exact this n h

theorem shortMask (n : ℕ) (h : n < 128) : UInt8.ofNat n &&& 0x80 = 0 ∧ (UInt8.ofNat n).toNat = n := by
  have : ∀ n < 128, UInt8.ofNat n &&& 0x80 = 0 ∧ (UInt8.ofNat n).toNat = n := by decide +kernel
  exact this n h

/-- An element is read back. -/
theorem parseTlv_tlv (tag : UInt8) (c rest : Bytes) (hc : c.length < 2 ^ 31) : parseTlv tag (tlv tag c ++ rest) = .ok (c, rest) := by
  unfold tlv
  have fin : ∀ l : Bytes, l = c ++ rest → (if tag ≠ tag then Res.err errSyntax else if l.length < c.length then .err errSyntax
      else .ok (l.take c.length, l.drop c.length)) = .ok (c, rest) := by
    rintro l rfl
    rw [if_neg (by simp), if_neg (by simp), List.take_left, List.drop_left]
  unfold lenBytes
  split
  · rename_i hs
    obtain ⟨m1, m2⟩ := shortMask c.length hs
    rw [List.cons_append, List.append_assoc, List.singleton_append]
    unfold parseTlv readLen
    dsimp only
    rw [if_pos m1, Res.ok_bind]
    dsimp only
    rw [m2]
    exact fin _ rfl
  · rename_i hs
    dsimp only
    have hl : (natToBE c.length).length ≤ 4 := natToBE_length_le (by omega)
    obtain ⟨m1, m2⟩ := lenMask (natToBE c.length).length (by omega)
    have hb := natOfBE_natToBE c.length
    have hl0 : (natToBE c.length).length ≠ 0 := by
      intro e
      have := natToBE_nil (List.length_eq_zero_iff.mp e)
      omega
    rw [List.cons_append, List.cons_append, List.cons_append, List.append_assoc]
    unfold parseTlv readLen
    dsimp only
    have m0 : ¬ UInt8.ofNat (0x80 + (natToBE c.length).length) &&& 0x7f = 0 := by
      intro e
      rw [e] at m2
      exact hl0 m2.symm
    rw [if_neg m1, if_neg m0, m2, longLen_ok]
    · rw [Res.ok_bind, hb, Nat.zero_mul, Nat.zero_add]
      exact fin _ rfl
    · rw [hb]; omega
    · rw [hb]; omega
    · intro _ d t e
      exact natToBE_head e

/-- What an accepted element looks like. -/
theorem parseTlv_inv {tag : UInt8} {bs c rest : Bytes} (h : parseTlv tag bs = .ok (c, rest)) :
    bs = tlv tag c ++ rest ∧ c.length < 2 ^ 31 := by
  unfold parseTlv at h
  match bs, h with
  | [], h => cases h
  | [_], h => cases h
  | t :: l :: r, h =>
    obtain ⟨⟨len, r'⟩, hl, h⟩ := Res.bind_eq_ok.mp h
    dsimp only at h
    split at h
    · cases h
    rename_i ht
    rw [not_not] at ht
    split at h
    · cases h
    rename_i hlen
    have h := Res.ok.inj h
    obtain ⟨rfl, rfl⟩ := Prod.mk.inj h
    have hc : (r'.take len).length = len := by rw [List.length_take]; omega
    subst ht
    unfold readLen at hl
    split at hl
    · rename_i hs
      have hl := Res.ok.inj hl
      obtain ⟨rfl, rfl⟩ := Prod.mk.inj hl
      have hlt : l.toNat < 128 := by
        have : ∀ l : UInt8, l &&& 0x80 = 0 → l.toNat < 128 := by apply Base58.forall_uint8; decide +kernel
        exact this l hs
      refine ⟨?_, by omega⟩
      unfold tlv lenBytes
      rw [hc, if_pos hlt]
      simp
    · rename_i hs
      split at hl
      · cases hl
      obtain ⟨b, e1, e2, e3, e4, e5, e6⟩ := longLen_inv _ _ _ _ _ hl (by intro _; omega)
      refine ⟨?_, by omega⟩
      unfold tlv lenBytes
      rw [hc, if_neg (by omega)]
      have hb : natToBE len = b := by
        cases b with
        | nil =>
          rw [e3] at e4
          simp [natOfBE] at e4
        | cons c t =>
          have := natToBE_of_head (b := t) (e6 rfl c t rfl)
          rw [e3, Nat.zero_mul, Nat.zero_add]
          exact this
      have hll : UInt8.ofNat (0x80 + b.length) = l := by
        rw [e2]
        have : ∀ l : UInt8, l &&& 0x80 ≠ 0 → UInt8.ofNat (0x80 + (l &&& 0x7f).toNat) = l := by
          apply Base58.forall_uint8; decide +kernel
        exact this l hs
      dsimp only
      rw [hb, hll, e1]
      simp

/-- The parser accepts exactly the encodings followed by anything. -/
theorem unmarshal_iff (bs : Bytes) (r s : ℤ) :
    unmarshal bs = .ok (r, s) ↔ ∃ extra trailing, (tlv 2 (intContent r) ++ (tlv 2 (intContent s) ++ extra)).length < 2 ^ 31 ∧
      bs = tlv 0x30 (tlv 2 (intContent r) ++ (tlv 2 (intContent s) ++ extra)) ++ trailing := by
  constructor
  · intro h
    unfold unmarshal at h
    obtain ⟨⟨inner, trailing⟩, h1, h⟩ := Res.bind_eq_ok.mp h
    obtain ⟨⟨rb, inner2⟩, h2, h⟩ := Res.bind_eq_ok.mp h
    obtain ⟨r', h3, h⟩ := Res.bind_eq_ok.mp h
    obtain ⟨⟨sb, extra⟩, h4, h⟩ := Res.bind_eq_ok.mp h
    obtain ⟨s', h5, h⟩ := Res.bind_eq_ok.mp h
    cases h
    obtain ⟨e1, l1⟩ := parseTlv_inv h1
    obtain ⟨e2, _⟩ := parseTlv_inv h2
    obtain ⟨e4, _⟩ := parseTlv_inv h4
    have e3 := intContent_of_parse h3
    have e5 := intContent_of_parse h5
    refine ⟨extra, trailing, ?_, ?_⟩
    · rw [← e3, ← e5, ← e4, ← e2]; exact l1
    · rw [← e3, ← e5, ← e4, ← e2]; exact e1
  · rintro ⟨extra, trailing, hl, rfl⟩
    have tl : ∀ c : Bytes, c.length ≤ (tlv 2 c).length := by intro c; unfold tlv; simp; omega
    have t1 := tl (intContent r)
    have t2 := tl (intContent s)
    rw [List.length_append, List.length_append] at hl
    unfold unmarshal
    rw [parseTlv_tlv _ _ _ (by rw [List.length_append, List.length_append]; exact hl), Res.ok_bind]
    dsimp only
    rw [parseTlv_tlv _ _ _ (by omega), Res.ok_bind]
    dsimp only
    rw [parseInt_intContent, Res.ok_bind, parseTlv_tlv _ _ _ (by omega), Res.ok_bind]
    dsimp only
    rw [parseInt_intContent, Res.ok_bind]
    rfl

theorem unmarshal_no_panic (bs : Bytes) : unmarshal bs ≠ .panic := by
  have hl : ∀ (n acc : ℕ) (b : Bytes), longLen n acc b ≠ .panic := by
    intro n
    induction n with
    | zero => intro acc b; unfold longLen; split <;> (intro h; cases h)
    | succ n ih =>
      intro acc b
      cases b with
      | nil => intro h; cases h
      | cons c b =>
        unfold longLen
        split
        · intro h; cases h
        dsimp only
        split
        · intro h; cases h
        · exact ih _ _
  have ht : ∀ tag b, parseTlv tag b ≠ .panic := by
    intro tag b
    unfold parseTlv
    match b with
    | [] => intro h; cases h
    | [_] => intro h; cases h
    | t :: l :: r =>
      intro h
      dsimp only at h
      rcases Res.bind_eq_panic.mp h with h | ⟨a, _, h⟩
      · unfold readLen at h
        split at h
        · cases h
        split at h
        · cases h
        · exact hl _ _ _ h
      · split at h
        · cases h
        split at h <;> cases h
  have hi : ∀ b, parseInt b ≠ .panic := by
    intro b
    unfold parseInt
    match b with
    | [] => intro h; cases h
    | [_] => intro h; cases h
    | c :: d :: r =>
      dsimp only
      split
      · intro h; cases h
      split <;> (intro h; cases h)
  intro h
  unfold unmarshal at h
  rcases Res.bind_eq_panic.mp h with h | ⟨_, _, h⟩
  · exact ht _ _ h
  rcases Res.bind_eq_panic.mp h with h | ⟨_, _, h⟩
  · exact ht _ _ h
  rcases Res.bind_eq_panic.mp h with h | ⟨_, _, h⟩
  · exact hi _ h
  rcases Res.bind_eq_panic.mp h with h | ⟨_, _, h⟩
  · exact ht _ _ h
  rcases Res.bind_eq_panic.mp h with h | ⟨_, _, h⟩
  · exact hi _ h
  · cases h

end Toku.Der
