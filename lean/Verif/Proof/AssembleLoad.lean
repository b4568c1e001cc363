import Verif.Proof.Assemble
import Verif.Proof.ScriptNum
/-
Lemmas about the assembler: hexadecimal, quotes, single words, the loop.
-/
namespace Toku.Assemble
open Toku.Spec Toku.Spec.Asm Toku.Script

instance : DecidablePred IsHexChar := fun _ => by unfold IsHexChar; infer_instance

theorem fromHexChar_val : ∀ c : UInt8, Id.fromHexChar c = if IsHexChar c then some (hexVal c) else none := by
  apply Base58.forall_uint8; decide +kernel

theorem hexPrefix_good (h : Bytes) (hall : ∀ c ∈ h, IsHexChar c) : hexPrefix h = hexBytes h := by
  induction h using hexPrefix.induct with
  | case1 a b rest x y hx hy ih =>
    unfold hexPrefix hexBytes
    rw [hx, hy]
    simp only
    rw [fromHexChar_val, if_pos (hall _ (by simp))] at hx
    rw [fromHexChar_val, if_pos (hall _ (by simp))] at hy
    rw [← Option.some.inj hx, ← Option.some.inj hy, ih (fun c hc => hall c (by simp [hc])), Nat.mul_comm]
  | case2 a b rest hne =>
    exact absurd (by rw [fromHexChar_val, if_pos (hall b (by simp))])
      (hne (hexVal a) (hexVal b) (by rw [fromHexChar_val, if_pos (hall a (by simp))]))
  | case3 r hr =>
    match r, hr with
    | [], _ => rfl
    | [_], _ => rfl
    | a :: b :: rest, hr => exact absurd rfl (hr a b rest)

theorem hexDecode_iff (h d : Bytes) : Id.hexDecode h = .ok d ↔ IsHex h ∧ d = hexBytes h := by
  induction h using Id.hexDecode.induct generalizing d with
  | case1 => simp [Id.hexDecode, IsHex, hexBytes, eq_comm]
  | case2 a => simp [Id.hexDecode, IsHex]
  | case3 a b rest x y hy hx ih =>
    have ha : IsHexChar a := (Id.hexChar_iff a).mp (by rw [hx]; rfl)
    have hb : IsHexChar b := (Id.hexChar_iff b).mp (by rw [hy]; rfl)
    have ex : hexVal a = x := by rw [fromHexChar_val, if_pos ha] at hx; exact Option.some.inj hx
    have ey : hexVal b = y := by rw [fromHexChar_val, if_pos hb] at hy; exact Option.some.inj hy
    unfold Id.hexDecode
    rw [hx, hy]
    simp only
    have hi : IsHex (a :: b :: rest) ↔ IsHex rest := by
      unfold IsHex
      simp only [List.length_cons, List.mem_cons, forall_eq_or_imp, ha, hb, true_and]
      rw [show (rest.length + 1 + 1) % 2 = rest.length % 2 by omega]
    rw [hi]
    unfold hexBytes
    rw [ex, ey, Nat.mul_comm 16 x]
    constructor
    · intro h
      cases e : Id.hexDecode rest with
      | ok r =>
        rw [e, Res.ok_bind] at h
        have := Res.ok.inj h
        obtain ⟨h1, h2⟩ := (ih r).mp e
        exact ⟨h1, by rw [← this, h2]⟩
      | err _ => rw [e, Res.err_bind] at h; cases h
      | panic => rw [e, Res.panic_bind] at h; cases h
    · rintro ⟨h1, rfl⟩
      rw [(ih (hexBytes rest)).mpr ⟨h1, rfl⟩, Res.ok_bind]; rfl
  | case4 a b rest hne =>
    unfold Id.hexDecode
    constructor
    · split
      · rename_i x y hx hy; exact absurd hy (hne x y hx)
      · intro h; cases h
    · rintro ⟨h1, _⟩
      exact absurd (by rw [fromHexChar_val, if_pos (h1.2 b (by simp))])
        (hne (hexVal a) (hexVal b) (by rw [fromHexChar_val, if_pos (h1.2 a (by simp))]))

theorem parseHex_iff (t d : Bytes) : parseHex t = .ok d ↔ ∃ h, t = ascii ['0', 'x'] ++ h ∧ IsHex h ∧ d = hexBytes h := by
  unfold parseHex
  split
  · rename_i h
    rw [hexDecode_iff]
    constructor
    · rintro ⟨h1, h2⟩; exact ⟨h, rfl, h1, h2⟩
    · rintro ⟨h', e, h1, h2⟩
      have : h = h' := by simpa [ascii] using e
      subst this; exact ⟨h1, h2⟩
  · rename_i hne
    constructor
    · intro h; cases h
    · rintro ⟨h, e, _⟩
      exact absurd e (hne h)

theorem quoted_iff (t d : Bytes) : quoted t = some d ↔ ∃ h, Quoted t h ∧ d = hexPrefix h := by
  unfold quoted Quoted
  constructor
  · intro h
    split_ifs at h with hc
    obtain ⟨hl, hh, ht⟩ := hc
    cases t with
    | nil => simp at hl
    | cons a r =>
      simp only [List.head?_cons, Option.some.injEq] at hh
      subst hh
      have hr : r ≠ [] := by rintro rfl; simp at hl
      have hlast : r.getLast hr = 0x27 := by
        rw [List.getLast?_cons_of_ne_nil hr, List.getLast?_eq_some_getLast hr] at ht
        exact Option.some.inj ht
      refine ⟨r.dropLast, ⟨?_, ?_⟩, (Option.some.inj h).symm⟩
      · intro e
        have := congrArg List.length e
        simp only [List.length_dropLast, List.length_nil, List.length_cons] at this hl
        omega
      · have := List.dropLast_append_getLast hr
        rw [hlast] at this
        show 39 :: r = 39 :: (r.dropLast ++ [39])
        rw [this]
  · rintro ⟨h, ⟨hne, rfl⟩, rfl⟩
    have : ascii ['\''] ++ h ++ ascii ['\''] = (39 :: h) ++ [39] := rfl
    rw [this, if_pos]
    · simp
    · refine ⟨?_, by simp, List.getLast?_concat⟩
      have := List.length_pos_iff.mpr hne
      simp; omega

theorem addData_append (b : Buffer) (d : Bytes) : (addData b d).data = b.data ++ (addData Buffer.new d).data := by
  unfold addData
  simp only [Buffer.writeU8, Buffer.writeBytes, Buffer.writeU16, Buffer.writeU32, Buffer.new]
  split_ifs <;> simp

theorem addInt64_append (b : Buffer) (n : Int) :
    (∃ b' b0, addInt64 b n = .ok b' ∧ addInt64 Buffer.new n = .ok b0 ∧ b'.data = b.data ++ b0.data) ∨
    (n = -2^63 ∧ addInt64 b n = .panic) ∨ ¬ (-2^63 ≤ n ∧ n < 2^63) := by
  unfold addInt64
  by_cases h0 : n = 0
  · left; simp [h0, Buffer.writeU8, Buffer.new]
  by_cases h1 : n = -1 ∨ (1 ≤ n ∧ n ≤ 16)
  · left; simp [h0, h1, Buffer.writeU8, Buffer.new]
  simp only [h0, h1, if_false]
  by_cases hr : -2^63 ≤ n ∧ n < 2^63
  · by_cases hm : n = -2^63
    · right; left
      subst hm
      rw [ScriptNum.bytes_min]
      exact ⟨rfl, rfl⟩
    · left
      obtain ⟨d, hd⟩ : ∃ d, ScriptNum.bytes n = .ok d := by
        obtain ⟨d, hd, _⟩ := ScriptNum.bytes_spec (n := n) (by omega) hr.2
        exact ⟨d, hd⟩
      rw [hd]
      exact ⟨_, _, rfl, rfl, addData_append b d⟩
  · exact .inr (.inr hr)

/-- a word of integers does not begin like a name -/
theorem integer_head {t : Bytes} {n : Int} (h : Integer t n) : ∃ c r, t = c :: r ∧ (c = 0x2b ∨ c = 0x2d ∨ (48 ≤ c.toNat ∧ c.toNat ≤ 57)) := by
  obtain ⟨d, m, hd, h⟩ := h
  obtain ⟨c, r, rfl, h1, h2⟩ := decimal_head hd
  rcases h with ⟨rfl | rfl, _⟩ | ⟨rfl, _⟩
  · exact ⟨c, r, rfl, .inr (.inr ⟨h1, h2⟩)⟩
  · exact ⟨_, _, rfl, .inl rfl⟩
  · exact ⟨_, _, rfl, .inr (.inl rfl)⟩

theorem integer_no_name {t : Bytes} {n : Int} (h : Integer t n) : opByName t = none := by
  apply opByName_none
  obtain ⟨c, r, rfl, hc⟩ := integer_head h
  rintro e
  have : c = 0x4f := by simpa using e
  subst this
  rcases hc with hc | hc | hc
  · cases hc
  · cases hc
  · have := hc.2; simp at this

theorem integer_unique {t : Bytes} {n m : Int} (h : Integer t n) (h' : Integer t m) : n = m := by
  obtain ⟨d, k, hd, h⟩ := h
  obtain ⟨d', k', hd', h'⟩ := h'
  obtain ⟨c, r, e, c1, c2⟩ := decimal_head hd
  obtain ⟨c', r', e', c1', c2'⟩ := decimal_head hd'
  have same : d = d' → k = k' := by rintro rfl; exact hd.2.2.trans hd'.2.2.symm
  have np : ∀ x : UInt8, 48 ≤ x.toNat → x ≠ 0x2b ∧ x ≠ 0x2d := by
    intro x hx
    constructor <;> (rintro rfl; simp at hx)
  subst e e'
  have p1 := np c c1
  have p2 := np c' c1'
  rcases h with ⟨rfl | rfl, rfl⟩ | ⟨rfl, rfl⟩ <;> rcases h' with ⟨h' | h', rfl⟩ | ⟨h', rfl⟩ <;>
    simp only [ascii, List.map_cons, List.map_nil, List.cons_append, List.nil_append, List.cons.injEq] at h'
  · rw [same (by rw [h'.1, h'.2])]
  · exact absurd h'.1 p1.1
  · exact absurd h'.1 p1.2
  · exact absurd h'.1.symm p2.1
  · rw [same (by rw [h'.2.1, h'.2.2])]
  · exact absurd h'.1 (by decide)
  · exact absurd h'.1.symm p2.2
  · exact absurd h'.1 (by decide)
  · rw [same (by rw [h'.2.1, h'.2.2])]

theorem raw_not_integer (h : Bytes) (n : Int) : ¬ Integer (ascii ['0', 'x'] ++ h) n := by
  rintro ⟨d, m, hd, h'⟩
  rcases h' with ⟨e | e, _⟩ | ⟨e, _⟩
  · have := hd.2.1 0x78 (by rw [← e]; simp [ascii])
    simp at this
  · simp [ascii] at e
  · simp [ascii] at e

theorem quoted_not_integer {t h : Bytes} (hq : Quoted t h) (n : Int) : ¬ Integer t n := by
  obtain ⟨_, rfl⟩ := hq
  intro hi
  obtain ⟨c, r, e, hc⟩ := integer_head hi
  have : c = 0x27 := by
    have := congrArg List.head? e
    simpa [ascii] using this.symm
  subst this
  rcases hc with hc | hc | hc
  · cases hc
  · cases hc
  · have := hc.1; simp at this

theorem parseInt_none {t : Bytes} (h : ∀ n, ¬ Integer t n) : parseInt t = none := by
  cases e : parseInt t with
  | none => rfl
  | some n => exact absurd ((parseInt_iff t n).mp e).1 (h n)

theorem load_opcode (b : Buffer) {t : Bytes} {o : UInt8} (h : Names t o) : loadToken b t = .ok (addOp b o) := by
  unfold loadToken
  rw [(opByName_iff t o).mpr h]

theorem load_integer (b : Buffer) {t : Bytes} {n : Int} (h : Integer t n) (h1 : -2^63 ≤ n) (h2 : n < 2^63) :
    loadToken b t = addInt64 b n := by
  unfold loadToken
  rw [integer_no_name h, (parseInt_iff t n).mpr ⟨h, h1, h2⟩]

theorem load_raw (b : Buffer) {h : Bytes} (hx : IsHex h) :
    loadToken b (ascii ['0', 'x'] ++ h) = .ok (b.writeBytes (hexBytes h)) := by
  unfold loadToken
  rw [opByName_none _ (by simp [ascii]), parseInt_none (raw_not_integer h), (parseHex_iff _ _).mpr ⟨h, rfl, hx, rfl⟩]

theorem load_quoted (b : Buffer) {t h : Bytes} (hq : Quoted t h) : loadToken b t = .ok (addData b (hexPrefix h)) := by
  unfold loadToken
  have hh : t.head? = some 0x27 := by rw [hq.2]; simp [ascii]
  rw [opByName_none _ (by rw [hh]; decide), parseInt_none (quoted_not_integer hq)]
  have hp : ∀ d, parseHex t ≠ .ok d := by
    intro d hd
    obtain ⟨h', e, _⟩ := (parseHex_iff t d).mp hd
    rw [e] at hh
    simp [ascii] at hh
  cases e : parseHex t with
  | ok d => exact absurd e (hp d)
  | err _ =>
    simp only
    rw [(quoted_iff t _).mpr ⟨h, hq, rfl⟩]
  | panic =>
    simp only
    rw [(quoted_iff t _).mpr ⟨h, hq, rfl⟩]

/-- a word that means nothing -/
theorem load_unknown (b : Buffer) {t : Bytes} (h1 : ∀ o, ¬ Names t o) (h2 : ∀ n, Integer t n → ¬ (-2^63 ≤ n ∧ n < 2^63))
    (h3 : ∀ h, t = ascii ['0', 'x'] ++ h → ¬ IsHex h) (h4 : ∀ h, ¬ Quoted t h) : loadToken b t = .err errToken := by
  unfold loadToken
  have e1 : opByName t = none := by
    cases e : opByName t with
    | none => rfl
    | some o => exact absurd ((opByName_iff t o).mp e) (h1 o)
  have e2 : parseInt t = none := by
    cases e : parseInt t with
    | none => rfl
    | some n => exact absurd ((parseInt_iff t n).mp e).2 (h2 n ((parseInt_iff t n).mp e).1)
  have e4 : quoted t = none := by
    cases e : quoted t with
    | none => rfl
    | some d =>
      obtain ⟨h, hq, _⟩ := (quoted_iff t d).mp e
      exact absurd hq (h4 h)
  rw [e1, e2]
  simp only
  split
  · rename_i d hd
    obtain ⟨h, e, hx, _⟩ := (parseHex_iff t d).mp hd
    exact absurd hx (h3 h e)
  · rw [e4]

theorem load_denotes (b : Buffer) {t code : Bytes} (h : Denotes t code) :
    ∃ b', loadToken b t = .ok b' ∧ b'.data = b.data ++ code := by
  cases h with
  | opcode h => exact ⟨_, load_opcode b h, rfl⟩
  | @integer _ n b0 h h1 h2 hb =>
    rw [load_integer b h (le_of_lt h1) h2]
    rcases addInt64_append b n with ⟨b', b0', e1, e2, e3⟩ | ⟨e, _⟩ | e
    · rw [hb] at e2
      have := Res.ok.inj e2
      subst this
      exact ⟨b', e1, e3⟩
    · exact absurd h1 (by rw [e]; omega)
    · exact absurd ⟨le_of_lt h1, h2⟩ e
  | raw h => exact ⟨_, load_raw b h, rfl⟩
  | @data _ h hq hx =>
    refine ⟨_, load_quoted b hq, ?_⟩
    rw [hexPrefix_good h hx.2]
    exact addData_append b _

theorem loadToken_cases (b : Buffer) (t : Bytes) :
    (∃ code, Denotes t code) ∨ (Integer t (-2^63) ∧ loadToken b t = .panic) ∨ BadQuote t ∨ loadToken b t = .err errToken := by
  by_cases h1 : ∃ o, Names t o
  · obtain ⟨o, h⟩ := h1; exact .inl ⟨_, .opcode h⟩
  by_cases h2 : ∃ n, Integer t n ∧ -2^63 ≤ n ∧ n < 2^63
  · obtain ⟨n, h, hl, hu⟩ := h2
    rcases addInt64_append b n with ⟨b', b0, e1, e2, e3⟩ | ⟨rfl, e⟩ | e
    · rcases eq_or_lt_of_le hl with rfl | hl'
      · right; left
        rw [load_integer b h hl hu]
        refine ⟨h, ?_⟩
        unfold addInt64
        rw [if_neg (by norm_num), if_neg (by norm_num), ScriptNum.bytes_min]
        rfl
      · exact .inl ⟨_, .integer h hl' hu e2⟩
    · exact .inr (.inl ⟨h, by rw [load_integer b h hl hu, e]⟩)
    · exact absurd ⟨hl, hu⟩ e
  by_cases h3 : ∃ h, t = ascii ['0', 'x'] ++ h ∧ IsHex h
  · obtain ⟨h, rfl, hx⟩ := h3; exact .inl ⟨_, .raw hx⟩
  by_cases h4 : ∃ h, Quoted t h
  · obtain ⟨h, hq⟩ := h4
    by_cases hx : IsHex h
    · exact .inl ⟨_, .data hq hx⟩
    · exact .inr (.inr (.inl ⟨h, hq, hx⟩))
  · push Not at h1 h2 h3 h4
    refine .inr (.inr (.inr (load_unknown b h1 (fun n h => ?_) (fun h => h3 h) h4)))
    rintro ⟨h5, h6⟩
    exact absurd (h2 n h h5) (not_le.mpr h6)

theorem denotes_unique {t c c' : Bytes} (h : Denotes t c) (h' : Denotes t c') : c = c' := by
  obtain ⟨b, e, d⟩ := load_denotes Buffer.new h
  obtain ⟨b', e', d'⟩ := load_denotes Buffer.new h'
  rw [e] at e'
  rw [← Res.ok.inj e', d] at d'
  simpa [Buffer.new] using d'

theorem split_words (text : Bytes) : split (text.map fun c => if c = 0x0a ∨ c = 0x09 then 0x20 else c) = words text := by
  unfold words
  induction text with
  | nil => rfl
  | cons c s ih =>
    rw [List.map_cons, List.splitOnP_cons_eq_if_modifyHead, split]
    by_cases h : c = 0x20 ∨ c = 0x0a ∨ c = 0x09
    · rw [if_pos, if_pos, ih]
      · rcases h with h | h | h <;> simp [h]
      · rcases h with h | h | h <;> simp [h]
    · push Not at h
      have hc : (if c = 0x0a ∨ c = 0x09 then 0x20 else c) = c := by simp [h.2.1, h.2.2]
      rw [hc, if_neg h.1, if_neg (by simp [h]), ih]
      have hne := List.splitOnP_ne_nil (fun c : UInt8 => c = 0x20 || c = 0x0a || c = 0x09) s
      cases e : List.splitOnP (fun c : UInt8 => c = 0x20 || c = 0x0a || c = 0x09) s with
      | nil => exact absurd e hne
      | cons w ws => rfl

theorem loadTokens_denotes (b : Buffer) {ts codes : List Bytes} (h : List.Forall₂ Denotes ts codes) :
    ∃ b', loadTokens b ts = .ok b' ∧ b'.data = b.data ++ codes.flatten := by
  induction h generalizing b with
  | nil => exact ⟨b, rfl, by simp⟩
  | cons hd _ ih =>
    obtain ⟨b1, e1, d1⟩ := load_denotes b hd
    obtain ⟨b2, e2, d2⟩ := ih b1
    refine ⟨b2, ?_, ?_⟩
    · rw [loadTokens, e1, Res.ok_bind, e2]
    · rw [d2, d1]; simp

theorem loadToken_min (b : Buffer) {t : Bytes} (hi : Integer t (-2^63)) : loadToken b t = .panic := by
  rw [load_integer b hi (by norm_num) (by norm_num)]
  unfold addInt64
  rw [if_neg (by norm_num), if_neg (by norm_num), ScriptNum.bytes_min]
  rfl

/-- the outcome of the loop is decided by the first word that means nothing -/
def Outcome (b : Buffer) (ts : List Bytes) : Prop :=
    ((∀ t ∈ ts, (∃ c, Denotes t c) ∨ BadQuote t) ∧ ∃ b', loadTokens b ts = .ok b') ∨
    (∃ ts1 t ts2, ts = ts1 ++ t :: ts2 ∧ (∀ u ∈ ts1, (∃ c, Denotes u c) ∨ BadQuote u) ∧ (∀ c, ¬ Denotes t c) ∧ ¬ BadQuote t ∧
      loadTokens b ts = loadToken b t ∧ ((Integer t (-2^63) ∧ loadToken b t = .panic) ∨
      (¬ Integer t (-2^63) ∧ loadToken b t = .err errToken)))

theorem loadTokens_cases (b : Buffer) (ts : List Bytes) : Outcome b ts := by
  induction ts generalizing b with
  | nil => exact .inl ⟨by simp, b, rfl⟩
  | cons t ts ih =>
    have step : ((∃ c, Denotes t c) ∨ BadQuote t) → (∃ b1, loadToken b t = .ok b1) → Outcome b (t :: ts) := by
      intro ha ⟨b1, e1⟩
      have e2 : loadTokens b (t :: ts) = loadTokens b1 ts := by rw [loadTokens, e1, Res.ok_bind]
      rcases ih b1 with ⟨h1, b', h2⟩ | ⟨ts1, u, ts2, rfl, h1, h3, h4, h5, h6⟩
      · left
        refine ⟨?_, b', by rw [e2, h2]⟩
        intro v hv
        rcases List.mem_cons.mp hv with rfl | hv
        · exact ha
        · exact h1 v hv
      · right
        have hx : loadToken b u = loadToken b1 u := by
          rcases h6 with ⟨hi, h6⟩ | ⟨hi, h6⟩
          · rw [h6, loadToken_min b hi]
          · rcases loadToken_cases b u with ⟨c, hc⟩ | ⟨hc, _⟩ | hc | hc
            · exact absurd hc (h3 c)
            · exact absurd hc hi
            · exact absurd hc h4
            · rw [hc, h6]
        refine ⟨t :: ts1, u, ts2, rfl, ?_, h3, h4, by rw [e2, h5, hx], by rw [hx]; exact h6⟩
        intro v hv
        rcases List.mem_cons.mp hv with rfl | hv
        · exact ha
        · exact h1 v hv
    by_cases hd : ∃ c, Denotes t c
    · obtain ⟨c, hc⟩ := hd
      obtain ⟨b1, e1, _⟩ := load_denotes b hc
      exact step (.inl ⟨c, hc⟩) ⟨b1, e1⟩
    by_cases hq : BadQuote t
    · obtain ⟨h, hq', hx⟩ := hq
      exact step (.inr ⟨h, hq', hx⟩) ⟨_, load_quoted b hq'⟩
    right
    refine ⟨[], t, ts, rfl, by simp, fun c hc => hd ⟨c, hc⟩, hq, ?_, ?_⟩
    · rcases loadToken_cases b t with h | ⟨h, e⟩ | h | e
      · exact absurd h hd
      · rw [loadTokens, e]; rfl
      · exact absurd h hq
      · rw [loadTokens, e]; rfl
    · by_cases hi : Integer t (-2^63)
      · exact .inl ⟨hi, loadToken_min b hi⟩
      · right
        refine ⟨hi, ?_⟩
        rcases loadToken_cases b t with h | ⟨h, e⟩ | h | e
        · exact absurd h hd
        · exact absurd h hi
        · exact absurd h hq
        · exact e

theorem denotes_nil (c : Bytes) : ¬ Denotes [] c := by
  intro h
  obtain ⟨b, e, _⟩ := load_denotes Buffer.new h
  have : loadToken Buffer.new [] = .err errToken := by decide +kernel
  rw [this] at e
  cases e

/-- what is decoded before an error is the longest good beginning -/
theorem hexPrefix_spec (h : Bytes) : ∃ p, p <+: h ∧ IsHex p ∧ hexPrefix h = hexBytes p ∧ ∀ q, q <+: h → IsHex q → q.length ≤ p.length := by
  induction h using hexPrefix.induct with
  | case1 a b rest x y hy hx ih =>
    have ha : IsHexChar a := (Id.hexChar_iff a).mp (by rw [hx]; rfl)
    have hb : IsHexChar b := (Id.hexChar_iff b).mp (by rw [hy]; rfl)
    have ex : hexVal a = x := by rw [fromHexChar_val, if_pos ha] at hx; exact Option.some.inj hx
    have ey : hexVal b = y := by rw [fromHexChar_val, if_pos hb] at hy; exact Option.some.inj hy
    obtain ⟨p, h1, h2, h3, h4⟩ := ih
    refine ⟨a :: b :: p, ?_, ?_, ?_, ?_⟩
    · simpa [List.cons_prefix_cons] using h1
    · constructor
      · have := h2.1; simp only [List.length_cons]; omega
      · intro c hc
        rcases List.mem_cons.mp hc with rfl | hc
        · exact ha
        rcases List.mem_cons.mp hc with rfl | hc
        · exact hb
        · exact h2.2 c hc
    · rw [hexPrefix, hx, hy]
      simp only
      rw [h3, hexBytes, ex, ey, Nat.mul_comm]
    · intro q hq1 hq2
      match q, hq1, hq2 with
      | [], _, _ => simp
      | [_], _, h => have := h.1; simp at this
      | c :: d :: q, hq1, hq2 =>
        rw [List.cons_prefix_cons, List.cons_prefix_cons] at hq1
        have := h4 q hq1.2.2 ⟨by have := hq2.1; simp only [List.length_cons] at this; omega, fun c hc => hq2.2 c (by simp [hc])⟩
        simpa using this
  | case2 a b rest hne =>
    refine ⟨[], by simp, ⟨rfl, by simp⟩, ?_, ?_⟩
    · rw [hexPrefix]
      split
      · rename_i x y hx hy; exact (hne x y hx hy).elim
      · rfl
    · intro q hq1 hq2
      match q, hq1, hq2 with
      | [], _, _ => simp
      | [_], _, h => have := h.1; simp at this
      | c :: d :: q, hq1, hq2 =>
        rw [List.cons_prefix_cons, List.cons_prefix_cons] at hq1
        obtain ⟨rfl, rfl, _⟩ := hq1
        exact absurd (by rw [fromHexChar_val, if_pos (hq2.2 d (by simp))])
          (hne (hexVal c) (hexVal d) (by rw [fromHexChar_val, if_pos (hq2.2 c (by simp))]))
  | case3 r hr =>
    refine ⟨[], by simp, ⟨rfl, by simp⟩, ?_, ?_⟩
    · match r, hr with
      | [], _ => rfl
      | [_], _ => rfl
      | a :: b :: rest, hr => exact absurd rfl (hr a b rest)
    · intro q hq1 hq2
      have hl := hq1.length_le
      match r, hr with
      | [], _ => simpa using hl
      | [_], _ =>
        have := hq2.1
        simp only [List.length_cons, List.length_nil] at hl ⊢
        omega
      | a :: b :: rest, hr => exact absurd rfl (hr a b rest)

end Toku.Assemble
