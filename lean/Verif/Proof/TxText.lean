import Verif.Spec.TxText
import Verif.Proof.Disasm
import Verif.Proof.Trace
import Verif.Props.Witness
import Verif.Props.Assemble
/-
Helper lemmas for the text of a transaction.
-/
namespace Toku.TxText
open Toku.Tx Toku.Spec Toku.Spec.Asm Toku.Spec.TxText

theorem scriptText_ok (T : Texts) {r : Bytes} (h : r.length < 2^62) : ∃ t, scriptText T r = .ok t := by
  unfold scriptText
  rcases Trace.disasm_cases h with ⟨t, e⟩ | ⟨e', e⟩ <;> rw [e]
  · exact ⟨t, rfl⟩
  · exact ⟨_, rfl⟩

theorem redeemLines_ok (T : Texts) {r : Option Bytes} (h : ∀ x, r = some x → x.length < 2^62) : ∃ t, redeemLines T r = .ok t := by
  cases r with
  | none => exact ⟨_, rfl⟩
  | some x =>
    obtain ⟨t, e⟩ := scriptText_ok T (h x rfl)
    exact ⟨_, by unfold redeemLines; dsimp only; rw [e]; rfl⟩

theorem witnessLines_cases (i : TxIn) :
    ((i.hasWitness = true ∧ i.witness = []) ∧ witnessLines i = .panic) ∨
    (¬ (i.hasWitness = true ∧ i.witness = []) ∧ ∃ l, witnessLines i = .ok l) := by
  unfold witnessLines TxIn.hasWitness
  cases i.witnessScriptCode with
  | none => exact .inr ⟨by simp, _, rfl⟩
  | some c =>
    cases i.witness with
    | nil => exact .inl ⟨by simp, rfl⟩
    | cons w ws => exact .inr ⟨by simp, _, rfl⟩

theorem inputLines_cases (T : Texts) (s : Bytes) (i : TxIn) (last : Bool) (h1 : i.rawLockingScript.length < 2^62)
    (h2 : i.finalLockingScript.length < 2^62) (h3 : i.rawUnlockingScript.length < 2^62)
    (h4 : ∀ r, i.redeemScript = some r → r.length < 2^62) :
    ((i.hasWitness = true ∧ i.witness = []) ∧ inputLines T s i last = .panic) ∨
    (¬ (i.hasWitness = true ∧ i.witness = []) ∧ ∃ l, inputLines T s i last = .ok l) := by
  obtain ⟨t1, e1⟩ := scriptText_ok T h1
  obtain ⟨t2, e2⟩ := scriptText_ok T h2
  obtain ⟨t3, e3⟩ := scriptText_ok T h3
  obtain ⟨t4, e4⟩ := redeemLines_ok T h4
  unfold inputLines
  rw [e1, e2, e3, e4]
  rcases witnessLines_cases i with ⟨h, e⟩ | ⟨h, l, e⟩ <;> rw [e]
  · exact .inl ⟨h, rfl⟩
  · exact .inr ⟨h, _, rfl⟩

theorem inputsLines_cases (T : Texts) (s : ℕ → Bytes) (ins : List TxIn)
    (h : ∀ i ∈ ins, i.rawLockingScript.length < 2^62 ∧ i.finalLockingScript.length < 2^62 ∧
      i.rawUnlockingScript.length < 2^62 ∧ ∀ r, i.redeemScript = some r → r.length < 2^62) (k : ℕ) :
    ((∃ i ∈ ins, i.hasWitness = true ∧ i.witness = []) ∧ inputsLines T s k ins = .panic) ∨
    (¬ (∃ i ∈ ins, i.hasWitness = true ∧ i.witness = []) ∧ ∃ l, inputsLines T s k ins = .ok l) := by
  induction ins generalizing k with
  | nil => exact .inr ⟨by simp, _, rfl⟩
  | cons i ins ih =>
    obtain ⟨a, b, c, d⟩ := h i (by simp)
    unfold inputsLines
    rcases inputLines_cases T (s k) i ins.isEmpty a b c d with ⟨p, e⟩ | ⟨p, l, e⟩ <;> rw [e]
    · exact .inl ⟨⟨i, by simp, p⟩, rfl⟩
    · rcases ih (fun i hi => h i (by simp [hi])) (k + 1) with ⟨⟨j, hj, q⟩, e'⟩ | ⟨q, l', e'⟩ <;> rw [e']
      · exact .inl ⟨⟨j, by simp [hj], q⟩, rfl⟩
      · refine .inr ⟨?_, _, rfl⟩
        rintro ⟨j, hj, q'⟩
        rcases List.mem_cons.mp hj with rfl | hj
        · exact p q'
        · exact q ⟨j, hj, q'⟩

theorem outputsLines_ok (T : Texts) (outs : List TxOut) (h : ∀ o ∈ outs, o.script.length < 2^62) :
    ∃ l, outputsLines T outs = .ok l := by
  induction outs with
  | nil => exact ⟨_, rfl⟩
  | cons o outs ih =>
    obtain ⟨t, e⟩ := scriptText_ok T (h o (by simp))
    obtain ⟨l, e'⟩ := ih fun o ho => h o (by simp [ho])
    exact ⟨_, by unfold outputsLines; rw [e, e']; rfl⟩

theorem toString_cases (T : Texts) (s : ℕ → Bytes) (tx : Transaction) (h : AllFit tx) :
    ((∃ i ∈ tx.inputs, i.hasWitness = true ∧ i.witness = []) ∧ toString T s tx = .panic) ∨
    (¬ (∃ i ∈ tx.inputs, i.hasWitness = true ∧ i.witness = []) ∧ ∃ l, toString T s tx = .ok l) := by
  obtain ⟨l, e⟩ := outputsLines_ok T tx.outputs h.2
  unfold toString
  rw [e]
  rcases inputsLines_cases T s tx.inputs h.1 0 with ⟨p, e⟩ | ⟨p, l, e⟩ <;> rw [e]
  · exact .inl ⟨p, rfl⟩
  · exact .inr ⟨p, _, rfl⟩

/-! ### Numbers -/

theorem dec_inj {a b : ℕ} (h : dec a = dec b) : a = b := by
  have val : ∀ n, (dec n).reverse.foldr (fun c acc => (c.toNat - 0x30) + 10 * acc) 0 = n := by
    intro n
    unfold dec
    split
    · next h0 => subst h0; rfl
    · rw [← List.map_reverse, List.reverse_reverse, List.foldr_map]
      have hd : ∀ d ∈ Nat.digits 10 n, d < 10 := fun d hd => Nat.digits_lt_base (by omega) hd
      have : ∀ l : List ℕ, (∀ d ∈ l, d < 10) →
          l.foldr (fun d acc => ((UInt8.ofNat (0x30 + d)).toNat - 0x30) + 10 * acc) 0 = Nat.ofDigits 10 l := by
        intro l hl
        induction l with
        | nil => rfl
        | cons d l ih =>
          have h10 := hl d (by simp)
          have e : (UInt8.ofNat (0x30 + d)).toNat = 0x30 + d := by
            rw [UInt8.toNat_ofNat']; omega
          rw [List.foldr_cons, ih fun d hd => hl d (by simp [hd]), e, Nat.ofDigits_cons]
          omega
      rw [this _ hd, Nat.ofDigits_digits]
  rw [← val a, h, val b]

theorem dec_char {n : ℕ} : ∀ c ∈ dec n, 0x30 ≤ c.toNat ∧ c.toNat < 0x3a := by
  intro c hc
  unfold dec at hc
  split at hc
  · simp at hc; subst hc; decide
  · obtain ⟨d, hd, rfl⟩ := List.mem_map.mp hc
    have : d < 10 := Nat.digits_lt_base (by omega) (List.mem_reverse.mp hd)
    rw [UInt8.toNat_ofNat']
    omega

/-! ### Newlines -/

def NoNl (l : Bytes) : Prop := (0x0a : UInt8) ∉ l

theorem NoNl.append {a b : Bytes} (ha : NoNl a) (hb : NoNl b) : NoNl (a ++ b) := by
  unfold NoNl at *; simp [ha, hb]

theorem nonl_dec (n : ℕ) : NoNl (dec n) := fun h => by
  have := dec_char _ h
  simp at this

theorem nonl_decInt (i : ℤ) : NoNl (decInt i) := by
  unfold decInt
  split
  · have := nonl_dec i.natAbs
    unfold NoNl at *
    simp [this]
  · exact nonl_dec _

theorem nonl_hex (d : Bytes) : NoNl (Id.hexEncode d) := fun h => by
  have := Assemble.hex_no_sep d _ h
  revert this; decide

theorem nonl_join {l : List Bytes} (h : ∀ w ∈ l, NoNl w) : NoNl (Assemble.join l) := by
  induction l with
  | nil => simp [Assemble.join, NoNl]
  | cons a l ih =>
    cases l with
    | nil => exact h a (by simp)
    | cons b l =>
      have h1 := h a (by simp)
      have h2 := ih fun w hw => h w (by simp [hw])
      unfold NoNl at *
      simp only [Assemble.join, List.mem_append, List.mem_cons] at h2 ⊢
      rintro (h | h | h)
      · exact h1 h
      · revert h; decide
      · exact h2 h

theorem scriptText_readable (T : Texts) {s t : Bytes} (h : Readable s) (e : scriptText T s = .ok t) :
    Assemble.disasm s = .ok t ∧ NoNl t := by
  obtain ⟨hl, ts, hv, rfl⟩ := h
  have hd := Assemble.disasm_tokens hv hl
  unfold scriptText at e
  rw [hd] at e
  cases e
  refine ⟨hd, nonl_join fun w hw h => ?_⟩
  have := Assemble.lines_no_sep hv w hw _ h
  revert this; decide

theorem scriptText_inj {T T' : Texts} {s s' t : Bytes} (h : Readable s) (h' : Readable s') (e : scriptText T s = .ok t)
    (e' : scriptText T' s' = .ok t) : s = s' :=
  Props.C96_injective s s' t h.1 h'.1 (scriptText_readable T h e).1 (scriptText_readable T' h' e').1

theorem join_inj {l l' : List Bytes} (h : ∀ w ∈ l, NoNl w) (h' : ∀ w ∈ l', NoNl w) (hn : l ≠ []) (hn' : l' ≠ [])
    (e : join l = join l') : l = l' := by
  have split : ∀ {a b x y : Bytes}, NoNl a → NoNl b → a ++ 0x0a :: x = b ++ 0x0a :: y → a = b ∧ x = y := by
    intro a
    induction a with
    | nil =>
      intro b x y _ hb e
      cases b with
      | nil => simpa using e
      | cons c b => simp at e; exact absurd (e.1 ▸ List.mem_cons_self) hb
    | cons d a ih =>
      intro b x y ha hb e
      cases b with
      | nil => simp at e; exact absurd (e.1 ▸ List.mem_cons_self) ha
      | cons c b =>
        simp only [List.cons_append, List.cons.injEq] at e
        obtain ⟨r1, r2⟩ := ih (fun h => ha (List.mem_cons_of_mem _ h)) (fun h => hb (List.mem_cons_of_mem _ h)) e.2
        exact ⟨by rw [e.1, r1], r2⟩
  induction l generalizing l' with
  | nil => exact absurd rfl hn
  | cons a l ih =>
    cases l' with
    | nil => exact absurd rfl hn'
    | cons b l' =>
      cases l with
      | nil =>
        cases l' with
        | nil => simpa [join] using e
        | cons b' l' =>
          simp only [join] at e
          exact absurd (e ▸ by simp) (h a (by simp))
      | cons a' l =>
        cases l' with
        | nil =>
          simp only [join] at e
          exact absurd (e ▸ by simp) (h' b (by simp))
        | cons b' l' =>
          simp only [join] at e
          obtain ⟨r1, r2⟩ := split (h a (by simp)) (h' b (by simp)) e
          rw [r1, ih (fun w hw => h w (by simp [hw])) (fun w hw => h' w (by simp [hw])) (by simp) (by simp) r2]

theorem quoted_inj {k l : String} {v v' : Bytes} (h : quoted k v l = quoted k v' l) : v = v' := by
  unfold quoted at h
  exact List.append_cancel_left (List.append_cancel_right h)

theorem nonl_quoted {k l : String} {v : Bytes} (hk : NoNl (ascii k.toList)) (hl : NoNl (ascii l.toList)) (hv : NoNl v) :
    NoNl (quoted k v l) := (hk.append hv).append hl

/-- Two lines with keys that differ. -/
theorem quoted_ne {k k' l l' : String} {v v' : Bytes} (n : ℕ) (hk : n < (ascii k.toList).length)
    (hk' : n < (ascii k'.toList).length) (hne : (ascii k.toList)[n]? ≠ (ascii k'.toList)[n]?) : quoted k v l ≠ quoted k' v' l' := by
  intro h
  apply hne
  have := congrArg (·[n]?) h
  simp only [quoted, List.append_assoc] at this
  rwa [List.getElem?_append_left hk, List.getElem?_append_left hk'] at this

/-! ### The lines of an input determine it -/

theorem toString_id_inj {a b : Bytes} (h : Id.toString a = Id.toString b) : a = b := by
  have := Props.C13_id_roundtrip a
  rw [h, Props.C13_id_roundtrip] at this
  exact (Res.ok.inj this).symm

theorem redeemLines_inj {T : Texts} {r r' : Option Bytes} {l l' X X' : List Bytes} {t t' : Bytes}
    (e : redeemLines T r = .ok l) (e' : redeemLines T r' = .ok l')
    (h : l ++ (quoted "      \"script\":\t\"" t "\"," :: X) = l' ++ (quoted "      \"script\":\t\"" t' "\"," :: X')) :
    r = r' ∧ t = t' ∧ X = X' := by
  cases r with
  | none =>
    cases e
    cases r' with
    | none =>
      cases e'
      simp only [List.nil_append, List.cons.injEq] at h
      exact ⟨rfl, quoted_inj h.1, h.2⟩
    | some r' =>
      obtain ⟨a', _, e'⟩ := Res.bind_eq_ok.mp e'
      cases e'
      simp only [List.nil_append, List.cons_append, List.cons.injEq] at h
      exact absurd h.1 (quoted_ne 7 (by decide) (by decide) (by decide))
  | some r =>
    obtain ⟨a, ea, e⟩ := Res.bind_eq_ok.mp e
    cases e
    cases r' with
    | none =>
      cases e'
      simp only [List.nil_append, List.cons_append, List.cons.injEq] at h
      exact absurd h.1 (quoted_ne 7 (by decide) (by decide) (by decide))
    | some r' =>
      obtain ⟨a', ea', e'⟩ := Res.bind_eq_ok.mp e'
      cases e'
      simp only [List.nil_append, List.cons_append, List.cons.injEq] at h
      obtain ⟨_, h2, h3, h4⟩ := h
      exact ⟨by rw [Assemble.hexEncode_inj (quoted_inj h2)], quoted_inj h3, h4⟩

theorem close_ne_quoted {b : Bool} {k l : String} {v : Bytes} (hk : 4 < (ascii k.toList).length)
    (h : (ascii k.toList)[4]? = some 0x20) : close b ≠ quoted k v l := by
  intro e
  have e := congrArg (·[4]?) e
  simp only [quoted, List.append_assoc] at e
  rw [List.getElem?_append_left hk, h] at e
  revert e
  cases b <;> decide

theorem witnessLines_inj {i i' : TxIn} {l l' X X' : List Bytes} {b b' : Bool}
    (e : witnessLines i = .ok l) (e' : witnessLines i' = .ok l') (h : l ++ (close b :: X) = l' ++ (close b' :: X')) :
    i.witnessScriptCode = i'.witnessScriptCode ∧ (i.witnessScriptCode ≠ none → i.witness.head? = i'.witness.head?) ∧ X = X' := by
  unfold witnessLines at e e'
  cases hc : i.witnessScriptCode with
  | none =>
    rw [hc] at e
    cases e
    cases hc' : i'.witnessScriptCode with
    | none =>
      rw [hc'] at e'
      cases e'
      simp only [List.nil_append, List.cons.injEq] at h
      exact ⟨rfl, by simp, h.2⟩
    | some c' =>
      rw [hc'] at e'
      obtain ⟨a', _, e'⟩ := Res.bind_eq_ok.mp e'
      cases e'
      simp only [List.nil_append, List.cons_append, List.cons.injEq] at h
      exact absurd h.1 (close_ne_quoted (by decide) (by decide))
  | some c =>
    rw [hc] at e
    obtain ⟨a, ha, e⟩ := Res.bind_eq_ok.mp e
    cases e
    cases hc' : i'.witnessScriptCode with
    | none =>
      rw [hc'] at e'
      cases e'
      simp only [List.nil_append, List.cons_append, List.cons.injEq] at h
      exact absurd h.1.symm (close_ne_quoted (by decide) (by decide))
    | some c' =>
      rw [hc'] at e'
      obtain ⟨a', ha', e'⟩ := Res.bind_eq_ok.mp e'
      cases e'
      simp only [List.nil_append, List.cons_append, List.cons.injEq] at h
      obtain ⟨h1, h2, _, h4⟩ := h
      refine ⟨by rw [Assemble.hexEncode_inj (quoted_inj h2)], fun _ => ?_, h4⟩
      have e0 := Assemble.hexEncode_inj (quoted_inj h1)
      have get : ∀ {w : List Bytes} {a : Bytes}, Res.ofIdx w[0]? = .ok a → w.head? = some a := by
        intro w a h
        cases w with
        | nil => cases h
        | cons x w => cases h; rfl
      rw [get ha, get ha', e0]

theorem inputLines_inj {T : Texts} {s s' : Bytes} {i i' : TxIn} {b b' : Bool} {l l' X X' : List Bytes}
    (hr : Readable i.rawLockingScript ∧ Readable i.finalLockingScript ∧ Readable i.rawUnlockingScript ∧
      ∀ r, i.redeemScript = some r → Readable r)
    (hr' : Readable i'.rawLockingScript ∧ Readable i'.finalLockingScript ∧ Readable i'.rawUnlockingScript ∧
      ∀ r, i'.redeemScript = some r → Readable r)
    (e : inputLines T s i b = .ok l) (e' : inputLines T s' i' b' = .ok l') (h : l ++ X = l' ++ X') :
    SameShown i i' ∧ s = s' ∧ X = X' := by
  obtain ⟨a1, p1, e⟩ := Res.bind_eq_ok.mp e
  obtain ⟨a2, p2, e⟩ := Res.bind_eq_ok.mp e
  obtain ⟨a3, p3, e⟩ := Res.bind_eq_ok.mp e
  obtain ⟨a4, p4, e⟩ := Res.bind_eq_ok.mp e
  obtain ⟨a5, p5, e⟩ := Res.bind_eq_ok.mp e
  obtain ⟨a6, p6, e⟩ := Res.bind_eq_ok.mp e
  cases e
  obtain ⟨c1, q1, e'⟩ := Res.bind_eq_ok.mp e'
  obtain ⟨c2, q2, e'⟩ := Res.bind_eq_ok.mp e'
  obtain ⟨c3, q3, e'⟩ := Res.bind_eq_ok.mp e'
  obtain ⟨c4, q4, e'⟩ := Res.bind_eq_ok.mp e'
  obtain ⟨c5, q5, e'⟩ := Res.bind_eq_ok.mp e'
  obtain ⟨c6, q6, e'⟩ := Res.bind_eq_ok.mp e'
  cases e'
  simp only [List.cons_append, List.nil_append, List.append_assoc, List.cons.injEq] at h
  obtain ⟨_, h1, h2, h3, h4, h5, h6, h7⟩ := h
  obtain ⟨hre, _, h8⟩ := redeemLines_inj p4 q4 h7
  simp only [List.cons.injEq] at h8
  obtain ⟨h8, h9⟩ := h8
  obtain ⟨hw1, hw2, h10⟩ := witnessLines_inj p6 q6 h9
  have f1 := quoted_inj h4
  have f2 := quoted_inj h5
  have f3 := quoted_inj h6
  subst f1 f2 f3
  exact ⟨⟨toString_id_inj (quoted_inj h1), UInt32.toNat_inj.mp (dec_inj (quoted_inj h2)),
    UInt64.toNat_inj.mp (dec_inj (quoted_inj h3)), scriptText_inj hr.1 hr'.1 p1 q1, scriptText_inj hr.2.1 hr'.2.1 p2 q2,
    scriptText_inj hr.2.2.1 hr'.2.2.1 p3 q3, hre, hw1, hw2⟩, Assemble.hexEncode_inj (quoted_inj h8), h10⟩

theorem inputLines_head {T : Texts} {s : Bytes} {i : TxIn} {b : Bool} {l : List Bytes} (e : inputLines T s i b = .ok l) :
    ∃ l', l = ascii "    {".toList :: l' := by
  obtain ⟨a1, p1, e⟩ := Res.bind_eq_ok.mp e
  obtain ⟨a2, p2, e⟩ := Res.bind_eq_ok.mp e
  obtain ⟨a3, p3, e⟩ := Res.bind_eq_ok.mp e
  obtain ⟨a4, p4, e⟩ := Res.bind_eq_ok.mp e
  obtain ⟨a5, p5, e⟩ := Res.bind_eq_ok.mp e
  obtain ⟨a6, p6, e⟩ := Res.bind_eq_ok.mp e
  cases e
  exact ⟨_, rfl⟩

theorem inputsLines_inj {T : Texts} {s s' : ℕ → Bytes} {ins ins' : List TxIn} {l l' X X' : List Bytes} {k : ℕ}
    (hr : ∀ i ∈ ins, Readable i.rawLockingScript ∧ Readable i.finalLockingScript ∧ Readable i.rawUnlockingScript ∧
      ∀ r, i.redeemScript = some r → Readable r)
    (hr' : ∀ i ∈ ins', Readable i.rawLockingScript ∧ Readable i.finalLockingScript ∧ Readable i.rawUnlockingScript ∧
      ∀ r, i.redeemScript = some r → Readable r)
    (e : inputsLines T s k ins = .ok l) (e' : inputsLines T s' k ins' = .ok l')
    (h : l ++ (ascii "  ],".toList :: X) = l' ++ (ascii "  ],".toList :: X')) :
    List.Forall₂ SameShown ins ins' ∧ (∀ j < ins.length, s (k + j) = s' (k + j)) ∧ X = X' := by
  induction ins generalizing ins' k l l' with
  | nil =>
    cases e
    cases ins' with
    | nil =>
      cases e'
      simp only [List.nil_append, List.cons.injEq, true_and] at h
      exact ⟨.nil, by simp, h⟩
    | cons i' ins' =>
      obtain ⟨a, ha, e'⟩ := Res.bind_eq_ok.mp e'
      obtain ⟨c, hc, e'⟩ := Res.bind_eq_ok.mp e'
      cases e'
      obtain ⟨m, rfl⟩ := inputLines_head ha
      simp only [List.nil_append, List.cons_append, List.cons.injEq] at h
      exact absurd h.1 (by decide)
  | cons i ins ih =>
    obtain ⟨a, ha, e⟩ := Res.bind_eq_ok.mp e
    obtain ⟨c, hc, e⟩ := Res.bind_eq_ok.mp e
    cases e
    cases ins' with
    | nil =>
      cases e'
      obtain ⟨m, rfl⟩ := inputLines_head ha
      simp only [List.nil_append, List.cons_append, List.cons.injEq] at h
      exact absurd h.1 (by decide)
    | cons i' ins' =>
      obtain ⟨a', ha', e'⟩ := Res.bind_eq_ok.mp e'
      obtain ⟨c', hc', e'⟩ := Res.bind_eq_ok.mp e'
      cases e'
      rw [List.append_assoc, List.append_assoc] at h
      obtain ⟨g1, g2, g3⟩ := inputLines_inj (hr i (by simp)) (hr' i' (by simp)) ha ha' h
      obtain ⟨k1, k2, k3⟩ := ih (fun i hi => hr i (by simp [hi])) (fun i hi => hr' i (by simp [hi])) hc hc' g3
      refine ⟨.cons g1 k1, ?_, k3⟩
      intro j hj
      cases j with
      | zero => exact g2
      | succ j =>
        have := k2 j (by simpa using hj)
        rwa [show k + (j + 1) = k + 1 + j by omega]

theorem outputsLines_inj {T : Texts} {outs outs' : List TxOut} {l l' X X' : List Bytes}
    (hr : ∀ o ∈ outs, Readable o.script) (hr' : ∀ o ∈ outs', Readable o.script)
    (e : outputsLines T outs = .ok l) (e' : outputsLines T outs' = .ok l')
    (h : l ++ (ascii "  ],".toList :: X) = l' ++ (ascii "  ],".toList :: X')) : outs = outs' ∧ X = X' := by
  induction outs generalizing outs' l l' with
  | nil =>
    cases e
    cases outs' with
    | nil =>
      cases e'
      simp only [List.nil_append, List.cons.injEq, true_and] at h
      exact ⟨rfl, h⟩
    | cons i' ins' =>
      obtain ⟨a, ha, e'⟩ := Res.bind_eq_ok.mp e'
      obtain ⟨c, hc, e'⟩ := Res.bind_eq_ok.mp e'
      cases e'
      simp only [List.nil_append, List.cons_append, List.cons.injEq] at h
      exact absurd h.1 (by decide)
  | cons o outs ih =>
    obtain ⟨a, ha, e⟩ := Res.bind_eq_ok.mp e
    obtain ⟨c, hc, e⟩ := Res.bind_eq_ok.mp e
    cases e
    cases outs' with
    | nil =>
      cases e'
      simp only [List.nil_append, List.cons_append, List.cons.injEq] at h
      exact absurd h.1 (by decide)
    | cons o' outs' =>
      obtain ⟨a', ha', e'⟩ := Res.bind_eq_ok.mp e'
      obtain ⟨c', hc', e'⟩ := Res.bind_eq_ok.mp e'
      cases e'
      simp only [List.nil_append, List.cons_append, List.cons.injEq] at h
      obtain ⟨_, h1, h2, _, h4⟩ := h
      obtain ⟨k1, k2⟩ := ih (fun i hi => hr i (by simp [hi])) (fun i hi => hr' i (by simp [hi])) hc hc' h4
      have f := quoted_inj h2
      subst f
      have f1 := UInt64.toNat_inj.mp (dec_inj (quoted_inj h1))
      have f2 := scriptText_inj (hr o (by simp)) (hr' o' (by simp)) ha ha'
      refine ⟨?_, k2⟩
      rw [k1]
      cases o; cases o'
      cases f1; cases f2; rfl

/-! ### No line contains a newline -/

theorem nonl_inputLines {T : Texts} {s : Bytes} {i : TxIn} {b : Bool} {l : List Bytes}
    (hr : Readable i.rawLockingScript ∧ Readable i.finalLockingScript ∧ Readable i.rawUnlockingScript ∧
      ∀ r, i.redeemScript = some r → Readable r)
    (e : inputLines T s i b = .ok l) : ∀ w ∈ l, NoNl w := by
  obtain ⟨a1, p1, e⟩ := Res.bind_eq_ok.mp e
  obtain ⟨a2, p2, e⟩ := Res.bind_eq_ok.mp e
  obtain ⟨a3, p3, e⟩ := Res.bind_eq_ok.mp e
  obtain ⟨a4, p4, e⟩ := Res.bind_eq_ok.mp e
  obtain ⟨a5, p5, e⟩ := Res.bind_eq_ok.mp e
  obtain ⟨a6, p6, e⟩ := Res.bind_eq_ok.mp e
  cases e
  have n1 := (scriptText_readable T hr.1 p1).2
  have n2 := (scriptText_readable T hr.2.1 p2).2
  have n3 := (scriptText_readable T hr.2.2.1 p3).2
  have n5 := (scriptText_readable T hr.2.2.1 p5).2
  have n4 : ∀ w ∈ a4, NoNl w := by
    cases hre : i.redeemScript with
    | none => rw [hre] at p4; cases p4; simp
    | some r =>
      rw [hre] at p4
      obtain ⟨t, ht, p4⟩ := Res.bind_eq_ok.mp p4
      cases p4
      intro w hw
      simp only [List.mem_cons, List.not_mem_nil, or_false] at hw
      rcases hw with rfl | rfl
      · exact nonl_quoted (by unfold NoNl; decide) (by unfold NoNl; decide) (scriptText_readable T (hr.2.2.2 r hre) ht).2
      · exact nonl_quoted (by unfold NoNl; decide) (by unfold NoNl; decide) (nonl_hex _)
  have n6 : ∀ w ∈ a6, NoNl w := by
    unfold witnessLines at p6
    cases hc : i.witnessScriptCode with
    | none => rw [hc] at p6; cases p6; simp
    | some c =>
      rw [hc] at p6
      obtain ⟨t, ht, p6⟩ := Res.bind_eq_ok.mp p6
      cases p6
      intro w hw
      simp only [List.mem_cons, List.not_mem_nil, or_false] at hw
      rcases hw with rfl | rfl
      all_goals exact nonl_quoted (by unfold NoNl; decide) (by unfold NoNl; decide) (nonl_hex _)
  intro w hw
  simp only [List.mem_append, List.mem_cons, List.not_mem_nil, or_false, or_assoc] at hw
  rcases hw with rfl | rfl | rfl | rfl | rfl | rfl | rfl | hw | rfl | rfl | hw | rfl
  · unfold NoNl; decide
  · exact nonl_quoted (by unfold NoNl; decide) (by unfold NoNl; decide) (nonl_hex _)
  · exact nonl_quoted (by unfold NoNl; decide) (by unfold NoNl; decide) (nonl_dec _)
  · exact nonl_quoted (by unfold NoNl; decide) (by unfold NoNl; decide) (nonl_dec _)
  · exact nonl_quoted (by unfold NoNl; decide) (by unfold NoNl; decide) n1
  · exact nonl_quoted (by unfold NoNl; decide) (by unfold NoNl; decide) n2
  · exact nonl_quoted (by unfold NoNl; decide) (by unfold NoNl; decide) n3
  · exact n4 w hw
  · exact nonl_quoted (by unfold NoNl; decide) (by unfold NoNl; decide) n5
  · exact nonl_quoted (by unfold NoNl; decide) (by unfold NoNl; decide) (nonl_hex _)
  · exact n6 w hw
  · unfold NoNl; cases b <;> decide

theorem nonl_inputsLines {T : Texts} {s : ℕ → Bytes} {ins : List TxIn} {l : List Bytes} {k : ℕ}
    (hr : ∀ i ∈ ins, Readable i.rawLockingScript ∧ Readable i.finalLockingScript ∧ Readable i.rawUnlockingScript ∧
      ∀ r, i.redeemScript = some r → Readable r)
    (e : inputsLines T s k ins = .ok l) : ∀ w ∈ l, NoNl w := by
  induction ins generalizing k l with
  | nil => cases e; simp
  | cons i ins ih =>
    obtain ⟨a, ha, e⟩ := Res.bind_eq_ok.mp e
    obtain ⟨c, hc, e⟩ := Res.bind_eq_ok.mp e
    cases e
    intro w hw
    rcases List.mem_append.mp hw with hw | hw
    · exact nonl_inputLines (hr i (by simp)) ha w hw
    · exact ih (fun i hi => hr i (by simp [hi])) hc w hw

theorem nonl_outputsLines {T : Texts} {outs : List TxOut} {l : List Bytes} (hr : ∀ o ∈ outs, Readable o.script)
    (e : outputsLines T outs = .ok l) : ∀ w ∈ l, NoNl w := by
  induction outs generalizing l with
  | nil => cases e; simp
  | cons o outs ih =>
    obtain ⟨a, ha, e⟩ := Res.bind_eq_ok.mp e
    obtain ⟨c, hc, e⟩ := Res.bind_eq_ok.mp e
    cases e
    intro w hw
    simp only [List.cons_append, List.nil_append, List.mem_cons] at hw
    rcases hw with rfl | rfl | rfl | rfl | hw
    · unfold NoNl; decide
    · exact nonl_quoted (by unfold NoNl; decide) (by unfold NoNl; decide) (nonl_dec _)
    · exact nonl_quoted (by unfold NoNl; decide) (by unfold NoNl; decide) (scriptText_readable T (hr o (by simp)) ha).2
    · unfold NoNl; cases outs.isEmpty <;> decide
    · exact ih (fun i hi => hr i (by simp [hi])) hc w hw

theorem nonl_sizeLines {T : Texts} (h1 : ∀ a b, NoNl (T.feesPerByte a b)) (h2 : ∀ a b, NoNl (T.saving a b)) (tx : Transaction) :
    ∀ w ∈ sizeLines T tx, NoNl w := by
  intro w hw
  simp only [sizeLines, List.mem_cons, List.not_mem_nil, or_false] at hw
  rcases hw with rfl | rfl | rfl | rfl | rfl | rfl | rfl | rfl
  iterate 5 exact nonl_quoted (by unfold NoNl; decide) (by unfold NoNl; decide) (nonl_dec _)
  · exact nonl_quoted (by unfold NoNl; decide) (by unfold NoNl; decide) (nonl_decInt _)
  · exact nonl_quoted (by unfold NoNl; decide) (by unfold NoNl; decide) (h1 _ _)
  · exact nonl_quoted (by unfold NoNl; decide) (by unfold NoNl; decide) (h2 _ _)

theorem join_snoc (l : List Bytes) (a b : Bytes) (hn : l ≠ []) : join (l ++ [a ++ b]) = join (l ++ [a]) ++ b := by
  induction l with
  | nil => exact absurd rfl hn
  | cons x l ih =>
    cases l with
    | nil => simp [join]
    | cons y l =>
      have := ih (by simp)
      simp only [List.cons_append, join] at this ⊢
      rw [this]
      simp

theorem join_cons_append (p a : Bytes) (l : List Bytes) : join ((p ++ a) :: l) = p ++ join (a :: l) := by
  cases l with
  | nil => rfl
  | cons b l => simp [join]

end Toku.TxText
