import Verif.Proof.VM2
/-
Multisig and panics.
-/
namespace Toku.VM
open Toku.Spec Toku.Buffer Toku.Script

theorem splitSig_snoc (der : Bytes) (t : UInt8) : splitSig (der ++ [t]) = .ok (t, der) := by
  simp [splitSig]

theorem checkOne_spec {env : Env} {S K : List Bytes} (ho : Oracles env S K) {sig key : Bytes} (hs : sig ≠ []) (hS : sig ∈ S)
    (hK : key ∈ K) :
    (checkOne env sig key = .ok true ∧ SigOk env sig key) ∨ (checkOne env sig key = .ok false ∧ ¬ SigOk env sig key) := by
  obtain ⟨hasher, verifier, h1, h2, h3⟩ := ho
  rcases ScriptNum.nil_or_snoc sig with rfl | ⟨der, t, rfl⟩
  · exact absurd rfl hs
  obtain ⟨⟨hash, hh⟩, h4⟩ := h3 der t hS
  unfold checkOne
  rw [splitSig_snoc, Res.ok_bind]
  simp only [h1, h2, hh, Res.ok_bind]
  have h5 := h4 hash key hK
  have inj : ∀ (der' : Bytes) (t' : UInt8), der ++ [t] = der' ++ [t'] → der = der' ∧ t = t' := by
    intro d' t' e
    have := List.append_inj' e rfl
    exact ⟨this.1, by simpa using this.2⟩
  cases hv : verifier hash der key with
  | panic => exact absurd hv h5
  | ok u =>
    left
    refine ⟨rfl, hasher, verifier, der, t, hash, h1, h2, rfl, hh, ?_⟩
    rw [hv]
  | err e =>
    right
    refine ⟨rfl, ?_⟩
    rintro ⟨hasher', verifier', der', t', hash', e1, e2, e3, e4, e5⟩
    obtain ⟨rfl, rfl⟩ := inj _ _ e3
    rw [h1] at e1; cases e1
    rw [h2] at e2; cases e2
    rw [hh] at e4; cases e4
    rw [hv] at e5; cases e5

theorem matching_length {ok : Bytes → Bytes → Prop} {s k : List Bytes} (h : Matching ok s k) : s.length ≤ k.length := by
  obtain ⟨c, hc, hf⟩ := h
  rw [hf.length_eq]; exact hc.length_le

theorem matching_skip {ok : Bytes → Bytes → Prop} {s k : List Bytes} {a : Bytes} (h : Matching ok s k) :
    Matching ok s (a :: k) := by
  obtain ⟨c, hc, hf⟩ := h
  exact ⟨c, hc.cons a, hf⟩

theorem matching_tail {ok : Bytes → Bytes → Prop} {s k : List Bytes} {x a : Bytes}
    (h : Matching ok (x :: s) (a :: k)) : Matching ok s k := by
  obtain ⟨c, hc, hf⟩ := h
  cases hf with
  | cons h1 h2 =>
    rename_i b l
    refine ⟨l, ?_, h2⟩
    exact List.Sublist.of_cons_cons (List.Sublist.trans hc (List.Sublist.refl _)) |> fun h => h

theorem multisigLoop_spec {env : Env} {S K : List Bytes} (ho : Oracles env S K) (keys : List Bytes) :
    (∀ k ∈ keys, k ∈ K) → ∀ sigs : List Bytes, (∀ s ∈ sigs, s ≠ []) → (∀ s ∈ sigs, s ∈ S) → sigs.length ≤ keys.length →
      ∃ b, multisigLoop env sigs keys = .ok b ∧ (b = true ↔ Matching (SigOk env) sigs keys) := by
  induction keys with
  | nil =>
    intro _ sigs _ _ hl
    have : sigs = [] := List.eq_nil_of_length_eq_zero (by simpa using hl)
    subst this
    exact ⟨true, by simp [multisigLoop], by simp; exact ⟨[], by simp, .nil⟩⟩
  | cons key keys ih =>
    intro hk sigs hne hmem hl
    have hk' : ∀ k ∈ keys, k ∈ K := fun k h => hk k (by simp [h])
    match sigs with
    | [] => exact ⟨true, by simp [multisigLoop], by simp; exact ⟨[], by simp, .nil⟩⟩
    | sig :: sigs =>
      have hne' : ∀ s ∈ sigs, s ≠ [] := fun s hs => hne s (by simp [hs])
      have hmem' : ∀ s ∈ sigs, s ∈ S := fun s hs => hmem s (by simp [hs])
      simp only [multisigLoop]
      rcases checkOne_spec ho (key := key) (hne sig (by simp)) (hmem sig (by simp)) (hk key (by simp)) with ⟨hc, hok⟩ | ⟨hc, hno⟩
      · rw [hc, Res.ok_bind]
        simp only [if_true]
        by_cases hlt : keys.length < sigs.length
        · simp at hl; omega
        · rw [if_neg hlt]
          obtain ⟨b, e, hb⟩ := ih hk' sigs hne' hmem' (by omega)
          refine ⟨b, e, hb.trans ⟨?_, matching_tail⟩⟩
          rintro ⟨c, hcs, hf⟩
          exact ⟨key :: c, hcs.cons_cons key, .cons hok hf⟩
      · rw [hc, Res.ok_bind]
        simp only [Bool.false_eq_true, if_false]
        have hdrop : Matching (SigOk env) (sig :: sigs) (key :: keys) → Matching (SigOk env) (sig :: sigs) keys := by
          rintro ⟨c, hcs, hf⟩
          cases hcs with
          | cons _ h => exact ⟨c, h, hf⟩
          | cons_cons _ h => cases hf with | cons h1 h2 => exact absurd h1 hno
        by_cases hlt : keys.length < (sig :: sigs).length
        · rw [if_pos hlt]
          refine ⟨false, rfl, by simp; intro h; have := matching_length (hdrop h); omega⟩
        · rw [if_neg hlt]
          obtain ⟨b, e, hb⟩ := ih hk' (sig :: sigs) hne hmem (by omega)
          exact ⟨b, e, hb.trans ⟨matching_skip, hdrop⟩⟩

theorem matching_reverse {ok : Bytes → Bytes → Prop} {s k : List Bytes} :
    Matching ok s.reverse k.reverse ↔ Matching ok s k := by
  have one : ∀ s k, Matching ok s k → Matching ok s.reverse k.reverse := by
    rintro s k ⟨c, hc, hf⟩
    exact ⟨c.reverse, List.reverse_sublist.mpr hc, List.rel_reverse hf⟩
  constructor
  · intro h
    have := one _ _ h
    simpa using this
  · exact one s k

theorem popMany_append (xs : List Bytes) (s : Stack) : popMany xs.length (xs ++ s) = .ok (xs, s) := by
  induction xs with
  | nil => rfl
  | cons x xs ih =>
    simp only [List.length_cons, popMany]
    rw [show pop (x :: xs ++ s) = .ok (x, xs ++ s) from rfl, Res.ok_bind]
    simp only
    rw [ih]; rfl

theorem popMany_ok {n : Nat} {s xs : List Bytes} {r : Stack} (h : popMany n s = .ok (xs, r)) : s = xs ++ r ∧ xs.length = n := by
  induction n generalizing s xs r with
  | zero => simp [popMany] at h; obtain ⟨rfl, rfl⟩ := h; simp
  | succ n ih =>
    simp only [popMany, Res.bind_eq_ok] at h
    obtain ⟨⟨x, s1⟩, hp, ⟨ys, s2⟩, hm, h⟩ := h
    cases h
    cases s with
    | nil => cases hp
    | cons a s => cases hp; obtain ⟨rfl, rfl⟩ := ih hm; simp

theorem popInt_cons {x : Bytes} {s : Stack} {n : Int} (h : ScriptNum.make x 4 = .ok n) : popInt (x :: s) = .ok (n, s) := by
  unfold popInt
  rw [show pop (x :: s) = .ok (x, s) from rfl, Res.ok_bind]
  simp only
  rw [h]; rfl

theorem int32_small {n : Nat} (h : n < 2^31) : ScriptNum.int32 (n : Int) = n := by
  unfold ScriptNum.int32; split_ifs <;> omega

theorem opCheckMultiSig_spec {env : Env} {K S : List Bytes} (ho : Oracles env S K) (hS : ∀ s ∈ S, s ≠ [])
    (hSK : S.length ≤ K.length) (hK : K.length < 2^31) {x y d : Bytes}
    (hx : ScriptNum.make x 4 = .ok (K.length : Int)) (hy : ScriptNum.make y 4 = .ok (S.length : Int)) (rest : Stack) :
    ∃ b, opCheckMultiSig env (x :: (K.reverse ++ y :: (S.reverse ++ d :: rest))) = .ok (boolBytes b :: rest) ∧
      (b = true ↔ Matching (SigOk env) S K) := by
  unfold opCheckMultiSig
  rw [popInt_cons hx, Res.ok_bind]
  simp only
  rw [int32_small hK, if_neg (by omega)]
  have h1 : popMany (K.length : Int).toNat (K.reverse ++ y :: (S.reverse ++ d :: rest)) = .ok (K.reverse, y :: (S.reverse ++ d :: rest)) := by
    have := popMany_append K.reverse (y :: (S.reverse ++ d :: rest))
    simpa using this
  rw [h1, Res.ok_bind]
  simp only
  rw [popInt_cons hy, Res.ok_bind]
  simp only
  rw [int32_small (by omega), if_neg (by omega), if_neg (by omega)]
  have h2 : popMany (S.length : Int).toNat (S.reverse ++ d :: rest) = .ok (S.reverse, d :: rest) := by
    have := popMany_append S.reverse (d :: rest)
    simpa using this
  rw [h2, Res.ok_bind]
  simp only
  rw [show pop (d :: rest) = .ok (d, rest) from rfl, Res.ok_bind]
  simp only
  obtain ⟨b, e, hb⟩ := multisigLoop_spec ho K.reverse (by simp) S.reverse (by simpa using hS) (by simp) (by simpa using hSK)
  rw [e, Res.ok_bind]
  exact ⟨b, rfl, hb.trans matching_reverse⟩

/-! ### panics -/

/-- the callbacks, if set, do not panic -/
def CallbacksSafe (env : Env) : Prop :=
  (∀ hasher, env.sigHasher = some hasher → ∀ t, hasher t ≠ .panic) ∧
  (∀ verifier, env.sigVerifier = some verifier → ∀ h s k, verifier h s k ≠ .panic)

theorem bind_ne_panic {α β : Type} {x : Res α} {f : α → Res β} (h1 : x ≠ .panic) (h2 : ∀ a, x = .ok a → f a ≠ .panic) :
    (x >>= f) ≠ .panic := by
  cases x with
  | ok a => exact h2 a rfl
  | err e => simp
  | panic => exact absurd rfl h1

theorem nipN_np (s : Stack) (i : Nat) : nipN s i ≠ .panic := by unfold nipN; split <;> simp
theorem pop_np (s : Stack) : pop s ≠ .panic := nipN_np s 0
theorem peek_np (s : Stack) (i : Nat) : peek s i ≠ .panic := by unfold peek; split <;> simp

theorem make_np (v : Bytes) (L : Nat) : ScriptNum.make v L ≠ .panic := by
  by_cases hl : v.length ≤ L
  · by_cases hm : ScriptNum.Minimal v
    · unfold ScriptNum.make
      rw [if_neg (by omega), (ScriptNum.checkMinimal_iff v).mpr hm, Res.ok_bind]
      split
      · simp
      · simp only []
        split <;> simp
    · rw [ScriptNum.make_bad hl hm]; simp
  · rw [ScriptNum.make_long (by omega)]; simp

theorem popInt_np (s : Stack) : popInt s ≠ .panic := by
  unfold popInt
  refine bind_ne_panic (pop_np s) fun a _ => bind_ne_panic (make_np _ _) fun n _ => by simp

theorem popBool_np (s : Stack) : popBool s ≠ .panic := by
  unfold popBool
  exact bind_ne_panic (pop_np s) fun a _ => by simp

theorem popInt_range {s r : Stack} {n : Int} (h : popInt s = .ok (n, r)) :
    ∃ x, s = x :: r ∧ ScriptNum.make x 4 = .ok n ∧ -2^31 < n ∧ n < 2^31 := by
  unfold popInt at h
  simp only [Res.bind_eq_ok] at h
  obtain ⟨⟨x, s1⟩, hp, n', hm, h⟩ := h
  cases s with
  | nil => cases hp
  | cons a s =>
    cases hp
    cases h
    refine ⟨x, rfl, hm, ?_⟩
    dsimp only at hm
    by_cases hl : x.length ≤ 4
    · by_cases hmin : ScriptNum.Minimal x
      · rw [ScriptNum.make_ok hl (by omega) hmin] at hm
        cases hm
        have := (ScriptNum.length_le_iff hmin 4 (by omega)).mp hl
        norm_num at this; omega
      · rw [ScriptNum.make_bad hl hmin] at hm; cases hm
    · rw [ScriptNum.make_long (by omega)] at hm; cases hm

theorem pushInt_np (s : Stack) {n : Int} (h1 : -2^63 < n) (h2 : n < 2^63) : pushInt s n ≠ .panic := by
  obtain ⟨v, e, _⟩ := ScriptNum.bytes_spec h1 h2
  unfold pushInt
  rw [e]; simp

theorem dupLoop_np (n k : Nat) (s : Stack) : dupLoop n k s ≠ .panic := by
  induction k generalizing s with
  | zero => simp [dupLoop]
  | succ k ih => exact bind_ne_panic (peek_np _ _) fun _ _ => ih _
theorem dupN_np (s : Stack) (n : Nat) : dupN s n ≠ .panic := by
  unfold dupN; split
  · simp
  · exact dupLoop_np _ _ _
theorem dropLoop_np (k : Nat) (s : Stack) : dropN.loop k s ≠ .panic := by
  induction k generalizing s with
  | zero => simp [dropN.loop]
  | succ k ih => exact bind_ne_panic (pop_np _) fun _ _ => ih _
theorem dropN_np (s : Stack) (n : Nat) : dropN n s ≠ .panic := by
  unfold dropN; split
  · simp
  · exact dropLoop_np _ _
theorem swapLoop_np (n k : Nat) (s : Stack) : swapN.loop n k s ≠ .panic := by
  induction k generalizing s with
  | zero => simp [swapN.loop]
  | succ k ih => exact bind_ne_panic (nipN_np _ _) fun _ _ => ih _
theorem swapN_np (s : Stack) (n : Nat) : swapN n s ≠ .panic := by
  unfold swapN; split
  · simp
  · exact swapLoop_np _ _ _
theorem opEqual_np (s : Stack) : opEqual s ≠ .panic := by
  unfold opEqual
  exact bind_ne_panic (pop_np _) fun _ _ => bind_ne_panic (pop_np _) fun _ _ => by simp
theorem equalVerify_np (s : Stack) : equalVerify s ≠ .panic := by
  unfold equalVerify
  exact bind_ne_panic (popBool_np _) fun _ _ => by dsimp only; split <;> simp
theorem opHash160_np (env : Env) (s : Stack) : opHash160 env s ≠ .panic := by
  unfold opHash160
  exact bind_ne_panic (pop_np _) fun _ _ => by simp
theorem opAdd_np (s : Stack) : opAdd s ≠ .panic := by
  unfold opAdd
  refine bind_ne_panic (popInt_np _) fun a ha => bind_ne_panic (popInt_np _) fun b hb => ?_
  obtain ⟨_, _, _, a1, a2⟩ := popInt_range (r := a.2) (n := a.1) ha
  obtain ⟨_, _, _, b1, b2⟩ := popInt_range (r := b.2) (n := b.1) hb
  exact pushInt_np _ (by omega) (by omega)
theorem opSize_np (s : Stack) (h : ∀ x ∈ s, x.length < 2^62) : opSize s ≠ .panic := by
  unfold opSize
  refine bind_ne_panic (peek_np _ _) fun a ha => ?_
  have : a ∈ s := by
    unfold peek at ha
    split at ha
    · cases ha
    · rename_i x hx
      cases ha
      exact List.mem_of_getElem? hx
  have := h a this
  exact pushInt_np _ (by omega) (by omega)
theorem verified_np {r : Res Unit} (h : r ≠ .panic) : verified r ≠ .panic := by
  cases r <;> simp_all [verified]
theorem opCheckSig_np {env : Env} (hc : CallbacksSafe env) (s : Stack) : opCheckSig env s ≠ .panic := by
  unfold opCheckSig
  split
  · rename_i hasher verifier h1 h2
    refine bind_ne_panic (pop_np _) fun a _ => bind_ne_panic (pop_np _) fun b _ => ?_
    dsimp only
    split
    · simp
    · rename_i hl
      rcases ScriptNum.nil_or_snoc b.1 with e | ⟨der, t, e⟩
      · rw [e] at hl; simp at hl
      · rw [e, splitSig_snoc, Res.ok_bind]
        exact bind_ne_panic (hc.1 _ h1 _) fun _ _ => bind_ne_panic (verified_np (hc.2 _ h2 _ _ _)) fun _ _ => by simp
  · simp

/-- A check panics exactly for a signature that makes it panic; otherwise it tells whether the signature is good. -/
theorem checkOne_panic {env : Env} (hc : CallbacksSafe env) (sig key : Bytes) :
    (checkOne env sig key = .panic ↔ CheckFault env sig) ∧
    ∀ v, checkOne env sig key = .ok v → (v = true ↔ SigOk env sig key) := by
  rcases ScriptNum.nil_or_snoc sig with rfl | ⟨der, t, rfl⟩
  · exact ⟨⟨fun _ => .inl rfl, fun _ => rfl⟩, fun v h => by cases h⟩
  have inj : ∀ (der' : Bytes) (t' : UInt8), der ++ [t] = der' ++ [t'] → der = der' ∧ t = t' := by
    intro d' t' e
    have := List.append_inj' e rfl
    exact ⟨this.1, by simpa using this.2⟩
  have hne : der ++ [t] ≠ [] := by simp
  unfold checkOne CheckFault
  rw [splitSig_snoc, Res.ok_bind]
  dsimp only
  cases h1 : env.sigHasher with
  | none => exact ⟨⟨fun _ => .inr (.inl rfl), fun _ => rfl⟩, fun v h => by cases h⟩
  | some hasher =>
    dsimp only
    cases h2 : hasher t with
    | panic => exact absurd h2 (hc.1 _ h1 _)
    | err e =>
      refine ⟨⟨(fun h => by cases h), ?_⟩, (fun v h => by cases h)⟩
      rintro (h | h | ⟨d', t', f, hash, e1, e2, e3, _⟩)
      · exact absurd h hne
      · cases h
      · cases e2
        rw [← (inj _ _ e1).2, h2] at e3
        cases e3
    | ok hash =>
      rw [Res.ok_bind]
      cases h3 : env.sigVerifier with
      | none => exact ⟨⟨fun _ => .inr (.inr ⟨der, t, hasher, hash, rfl, rfl, h2, rfl⟩), fun _ => rfl⟩, fun v h => by cases h⟩
      | some verifier =>
        dsimp only
        constructor
        · constructor
          · intro h
            exact absurd h (verified_np (hc.2 _ h3 _ _ _))
          · rintro (h | h | ⟨_, _, _, _, _, _, _, e4⟩)
            · exact absurd h hne
            · cases h
            · cases e4
        · intro v h
          cases h4 : verifier hash der key with
          | panic => exact absurd h4 (hc.2 _ h3 _ _ _)
          | ok u =>
            rw [h4] at h
            cases h
            exact ⟨fun _ => ⟨hasher, verifier, der, t, hash, h1, h3, rfl, h2, h4⟩, fun _ => rfl⟩
          | err e =>
            rw [h4] at h
            cases h
            refine ⟨fun h => (by cases h), ?_⟩
            rintro ⟨hasher', verifier', der', t', hash', e1, e2, e3, e4, e5⟩
            obtain ⟨rfl, rfl⟩ := inj _ _ e3
            rw [h1] at e1; cases e1
            rw [h3] at e2; cases e2
            rw [h2] at e4; cases e4
            rw [h4] at e5; cases e5

theorem checkOne_known {env : Env} (hc : CallbacksSafe env) {sig key : Bytes} (h : SigOk env sig key) (key' : Bytes) :
    ∃ v, checkOne env sig key' = .ok v := by
  obtain ⟨hasher, verifier, der, t, hash, h1, h2, rfl, h4, _⟩ := h
  unfold checkOne
  rw [splitSig_snoc, Res.ok_bind]
  simp only [h1, h2, h4, Res.ok_bind]
  cases h5 : verifier hash der key' with
  | panic => exact absurd h5 (hc.2 _ h2 _ _ _)
  | ok u => exact ⟨_, rfl⟩
  | err e => exact ⟨_, rfl⟩

theorem matching_drop {ok : Bytes → Bytes → Prop} {s k : List Bytes} {x a : Bytes}
    (h : Matching ok (x :: s) (a :: k)) (hn : ¬ ok x a) : Matching ok (x :: s) k := by
  obtain ⟨c, hc, hf⟩ := h
  cases hf with
  | cons h1 h2 =>
    cases hc with
    | cons _ h => exact ⟨_, h, .cons h1 h2⟩
    | cons_cons _ h => exact absurd h1 hn

theorem matching_head {ok : Bytes → Bytes → Prop} {s k : List Bytes} {x : Bytes} (h : Matching ok (x :: s) k) :
    ∃ a k', k = a :: k' ∧ ∃ b, ok x b := by
  obtain ⟨c, hc, hf⟩ := h
  cases hf with
  | cons h1 h2 =>
    cases k with
    | nil => cases hc
    | cons a k' => exact ⟨a, k', rfl, _, h1⟩

theorem matching_both {ok : Bytes → Bytes → Prop} {s k : List Bytes} {x a : Bytes} (hx : ok x a) (h : Matching ok s k) :
    Matching ok (x :: s) (a :: k) := by
  obtain ⟨c, hc, hf⟩ := h
  exact ⟨a :: c, hc.cons_cons a, .cons hx hf⟩

theorem multisigLoop_panic {env : Env} (hc : CallbacksSafe env) (keys : List Bytes) :
    ∀ sigs : List Bytes, sigs.length ≤ keys.length → (multisigLoop env sigs keys = .panic ↔ LoopFault env sigs keys) := by
  induction keys with
  | nil =>
    intro sigs hl
    cases sigs with
    | cons a l => simp at hl
    | nil =>
      refine ⟨fun h => by simp [multisigLoop] at h, ?_⟩
      rintro ⟨S1, s, S2, K1, K2, h, _⟩
      simp at h
  | cons key keys ih =>
    intro sigs hl
    match sigs, hl with
    | [], _ =>
      refine ⟨fun h => by simp [multisigLoop] at h, ?_⟩
      rintro ⟨S1, s, S2, K1, K2, h, _⟩
      simp at h
    | sig :: sigs, hl =>
      have hl' : sigs.length ≤ keys.length := by simpa using hl
      obtain ⟨c1, c2⟩ := checkOne_panic hc sig key
      rw [multisigLoop]
      constructor
      · intro h
        rw [Res.bind_eq_panic] at h
        rcases h with h | ⟨v, hv, h⟩
        · exact ⟨[], sig, sigs, [], key :: keys, rfl, rfl, hl, ⟨[], .slnil, .nil⟩, c1.mp h⟩
        · cases v with
          | true =>
            rw [if_pos rfl] at h
            split at h
            · cases h
            · obtain ⟨S1, s, S2, K1, K2, rfl, rfl, e3, e4, e5⟩ := (ih sigs hl').mp h
              exact ⟨sig :: S1, s, S2, key :: K1, K2, rfl, rfl, e3, matching_both ((c2 _ hv).mp rfl) e4, e5⟩
          | false =>
            rw [if_neg (by simp)] at h
            split at h
            · cases h
            · obtain ⟨S1, s, S2, K1, K2, e1, rfl, e3, e4, e5⟩ := (ih (sig :: sigs) (by omega)).mp h
              exact ⟨S1, s, S2, key :: K1, K2, e1, rfl, e3, matching_skip e4, e5⟩
      · rintro ⟨S1, s, S2, K1, K2, e1, e2, e3, e4, e5⟩
        rw [Res.bind_eq_panic]
        cases S1 with
        | nil =>
          left
          rw [List.nil_append] at e1
          cases e1
          exact c1.mpr e5
        | cons s1 S1 =>
          right
          rw [List.cons_append] at e1
          cases e1
          obtain ⟨a, K1', rfl, b, hb⟩ := matching_head e4
          rw [List.cons_append] at e2
          cases e2
          obtain ⟨v, hv⟩ := checkOne_known hc hb key
          have hm := matching_length (matching_tail e4)
          have e3' : S2.length + 1 ≤ K2.length := e3
          refine ⟨v, hv, ?_⟩
          cases v with
          | true =>
            rw [if_pos rfl, if_neg (by simp; omega)]
            exact (ih _ (by simp; omega)).mpr ⟨S1, s, S2, K1', K2, rfl, rfl, e3, matching_tail e4, e5⟩
          | false =>
            have hd := matching_drop e4 (fun h => by have := (c2 _ hv).mpr h; cases this)
            have hm := matching_length hd
            simp only [List.length_cons] at hm
            rw [if_neg (by simp), if_neg (by simp; omega)]
            exact (ih _ (by simp; omega)).mpr ⟨sig :: S1, s, S2, K1', K2, rfl, rfl, e3, hd, e5⟩

theorem popMany_np (n : Nat) (s : Stack) : popMany n s ≠ .panic := by
  induction n generalizing s with
  | zero => simp [popMany]
  | succ n ih =>
    unfold popMany
    exact bind_ne_panic (pop_np _) fun _ _ => bind_ne_panic (ih _) fun _ _ => by simp

theorem int32_id {n : Int} (h1 : -2^31 < n) (h2 : n < 2^31) : ScriptNum.int32 n = n := by
  unfold ScriptNum.int32; split_ifs <;> omega

theorem opCheckMultiSig_panic {env : Env} (hc : CallbacksSafe env) (s : Stack) :
    opCheckMultiSig env s = .panic ↔ MultisigFault env s := by
  constructor
  · intro h
    by_contra hf
    unfold MultisigFault at hf
    push Not at hf
    obtain ⟨f1, f2, f3⟩ := hf
    revert h
    unfold opCheckMultiSig
    refine bind_ne_panic (popInt_np _) fun a ha => ?_
    obtain ⟨n, s1⟩ := a
    obtain ⟨x, rfl, hx, n1, n2⟩ := popInt_range ha
    dsimp only
    rw [int32_id n1 n2]
    have hn := f1 x s1 n rfl hx
    rw [if_neg (by omega)]
    refine bind_ne_panic (popMany_np _ _) fun b hb => ?_
    obtain ⟨keys, s2⟩ := b
    obtain ⟨rfl, hkl⟩ := popMany_ok hb
    dsimp only
    refine bind_ne_panic (popInt_np _) fun c hcc => ?_
    obtain ⟨m, s3⟩ := c
    obtain ⟨y, rfl, hy, m1, m2⟩ := popInt_range hcc
    dsimp only
    rw [int32_id m1 m2]
    have hxn : ScriptNum.make x 4 = .ok ((n.toNat : Nat) : Int) := by rw [hx]; congr 1; omega
    have hm := f2 x keys y s3 m rfl (by rw [hxn, hkl]) hy
    split
    · simp
    · rw [if_neg (by omega)]
      refine bind_ne_panic (popMany_np _ _) fun e he => ?_
      obtain ⟨sigs, s4⟩ := e
      obtain ⟨rfl, hsl⟩ := popMany_ok he
      dsimp only
      refine bind_ne_panic (pop_np _) fun f hf => ?_
      obtain ⟨d, s5⟩ := f
      have : s4 = d :: s5 := by
        cases s4 with
        | nil => cases hf
        | cons a l => cases hf; rfl
      subst this
      dsimp only
      refine bind_ne_panic ?_ fun _ _ => by simp
      intro hp
      have hle : sigs.length ≤ keys.length := by omega
      exact f3 x keys y sigs d s5 rfl (by rw [hxn, hkl]) (by rw [hy]; congr 1; omega) hle
        ((multisigLoop_panic hc keys sigs hle).mp hp)
  · have range : ∀ (x : Bytes) (r : Stack) (n : Int), ScriptNum.make x 4 = .ok n → -2^31 < n ∧ n < 2^31 := by
      intro x r n hx
      obtain ⟨_, _, _, a, b⟩ := popInt_range (popInt_cons (s := r) hx)
      exact ⟨a, b⟩
    rintro (⟨x, r, n, rfl, hx, hn⟩ | ⟨x, keys, y, r, m, rfl, hx, hy, hm⟩ | ⟨x, keys, y, sigs, d, r, rfl, hx, hy, hle, hf⟩)
    · obtain ⟨a, b⟩ := range x r n hx
      unfold opCheckMultiSig
      rw [popInt_cons hx, Res.ok_bind]
      dsimp only
      rw [int32_id a b, if_pos hn]
    all_goals
      obtain ⟨a, b⟩ := range x [] _ hx
      obtain ⟨a', b'⟩ := range y [] _ hy
      unfold opCheckMultiSig
      rw [popInt_cons hx, Res.ok_bind]
      dsimp only
      rw [int32_id a b, if_neg (by omega), Int.toNat_natCast, popMany_append, Res.ok_bind]
      dsimp only
      rw [popInt_cons hy, Res.ok_bind]
      dsimp only
      rw [int32_id a' b', if_neg (by omega)]
    · rw [if_pos hm]
    · rw [if_neg (by omega), Int.toNat_natCast, popMany_append, Res.ok_bind]
      dsimp only
      rw [show pop (d :: r) = .ok (d, r) from rfl, Res.ok_bind]
      dsimp only
      rw [(multisigLoop_panic hc keys sigs hle).mpr hf]
      rfl

/-- sizes of stack elements: no element reaches 2^62 bytes -/
def SmallStack (s : Stack) : Prop := ∀ x ∈ s, x.length < 2^62

theorem exec_panic {env : Env} (hc : CallbacksSafe env) {t : Token} (hv : t.Valid) {vm : State} (hs : SmallStack vm.dstack)
    (h : exec env (instrOf t) vm = .panic) :
    (t.op = 0xae ∨ t.op = 0xaf) ∧ branchShouldSkip vm = false ∧ MultisigFault env vm.dstack := by
  obtain ⟨o, ho, hval, _⟩ := opcodes_some t.op hv.1
  have hi : instrOf t = ⟨o, t.data⟩ := by simp [instrOf, ho]
  by_cases hcond : IsCond t
  · exfalso
    revert h
    rw [exec_cond env hv hcond]
    unfold opfunc
    have pif : ∀ neg vm, opIf neg vm ≠ .panic := by
      intro neg vm
      unfold opIf
      split
      · refine bind_ne_panic ?_ fun _ _ => by simp
        unfold popIfBool
        exact bind_ne_panic (pop_np _) fun _ _ => by dsimp only; split_ifs <;> simp
      · simp
    split
    · exact pif _ _
    · exact pif _ _
    · unfold opElse; split <;> simp
    · unfold opEndIf; split <;> simp
    · rename_i a b c d
      obtain ⟨h1, _⟩ : (o.fn = .opIf ∨ o.fn = .opNotIf ∨ o.fn = .opElse ∨ o.fn = .opEndIf) ∧ True := by
        have : ∀ op : UInt8, op.toNat ∈ [0x63, 0x64, 0x67, 0x68] → (opcodes op).all (fun o =>
            (o.fn == .opIf || o.fn == .opNotIf || o.fn == .opElse || o.fn == .opEndIf)) = true := by
          apply Base58.forall_uint8; decide +kernel
        have := this t.op hcond
        rw [ho] at this
        simp only [Option.all_some, Bool.or_eq_true, beq_iff_eq] at this
        tauto
      rw [hi] at a b c d
      rcases h1 with e | e | e | e <;> simp_all
  · by_cases hsk : branchShouldSkip vm = true
    · rw [exec_skip env hv hcond vm hsk] at h; cases h
    · have hsk : branchShouldSkip vm = false := by simpa using hsk
      rw [exec_data env hv hcond vm hsk] at h
      have hd : dataOp env (instrOf t) vm.dstack = .panic := by
        rw [Res.bind_eq_panic] at h
        rcases h with h | ⟨_, _, h⟩
        · exact h
        · cases h
      have hms : ∀ op : UInt8, ∀ o, opcodes op = some o → (o.fn = .opCheckMultiSig ∨ o.fn = .opCheckMultiSigVerify) →
          op = 0xae ∨ op = 0xaf := by
        have : ∀ op : UInt8, (opcodes op).all (fun o => !(o.fn == .opCheckMultiSig || o.fn == .opCheckMultiSigVerify) ||
            (op == 0xae || op == 0xaf)) = true := by apply Base58.forall_uint8; decide +kernel
        intro op o ho h
        have := this op
        rw [ho] at this
        simp only [Option.all_some, Bool.or_eq_true, Bool.not_eq_true', Bool.or_eq_false_iff, beq_eq_false_iff_ne, beq_iff_eq] at this
        rcases this with h' | h'
        · rcases h with e | e <;> simp_all
        · exact h'
      rw [hi] at hd
      have hN : ∀ v : UInt8, pushInt vm.dstack (v.toNat : Int) ≠ .panic := fun v =>
        pushInt_np _ (by omega) (by have := v.toNat_lt; omega)
      unfold dataOp at hd
      split at hd
      · cases hd
      · cases hd
      · exact absurd hd (hN _)
      · cases hd
      · exact absurd hd (dupN_np _ _)
      · exact absurd hd (dupN_np _ _)
      · exact absurd hd (dupN_np _ _)
      · exact absurd hd (swapN_np _ _)
      · exact absurd hd (opSize_np _ hs)
      · exact absurd hd (dropN_np _ _)
      · exact absurd hd (opEqual_np _)
      · exact absurd hd (bind_ne_panic (opEqual_np _) fun _ _ => equalVerify_np _)
      · exact absurd hd (opAdd_np _)
      · exact absurd hd (opHash160_np _ _)
      · exact absurd hd (opCheckSig_np hc _)
      · exact absurd hd (bind_ne_panic (opCheckSig_np hc _) fun _ _ => equalVerify_np _)
      · rename_i hf
        exact ⟨hms t.op o ho (Or.inl hf), hsk, (opCheckMultiSig_panic hc _).mp hd⟩
      · rename_i hf
        refine ⟨hms t.op o ho (Or.inr hf), hsk, ?_⟩
        rw [Res.bind_eq_panic] at hd
        rcases hd with hd | ⟨_, _, hd⟩
        · exact (opCheckMultiSig_panic hc _).mp hd
        · exact absurd hd (equalVerify_np _)
      all_goals cases hd

/-- The other direction: a faulty CHECKMULTISIG in an executing branch panics. -/
theorem exec_faulty {env : Env} (hc : CallbacksSafe env) {t : Token} (hv : t.Valid) {vm : State}
    (ht : t.op = 0xae ∨ t.op = 0xaf) (hsk : branchShouldSkip vm = false) (hf : MultisigFault env vm.dstack) :
    exec env (instrOf t) vm = .panic := by
  have hp := (opCheckMultiSig_panic hc _).mpr hf
  have hcond : ¬ IsCond t := by
    rcases ht with h | h <;> (unfold IsCond; rw [h]; decide)
  rw [exec_data env hv hcond vm hsk]
  have h1 : (opcodes 0xae).map (fun o => o.fn) = some .opCheckMultiSig := by decide +kernel
  have h2 : (opcodes 0xaf).map (fun o => o.fn) = some .opCheckMultiSigVerify := by decide +kernel
  obtain ⟨o, ho, _⟩ := opcodes_some t.op hv.1
  have hi : instrOf t = ⟨o, t.data⟩ := by simp [instrOf, ho]
  rw [hi]
  unfold dataOp
  rcases ht with h | h
  · rw [h] at ho
    rw [ho] at h1
    have h1 : o.fn = .opCheckMultiSig := by simpa using h1
    simp only [h1, hp]
    rfl
  · rw [h] at ho
    rw [ho] at h2
    have h2 : o.fn = .opCheckMultiSigVerify := by simpa using h2
    simp only [h2, hp]
    rfl

/-! ### sizes -/

theorem nipN_mem {s r : Stack} {i : Nat} {x : Bytes} (h : nipN s i = .ok (x, r)) : x ∈ s ∧ ∀ y ∈ r, y ∈ s := by
  unfold nipN at h
  split at h
  · cases h
  · rename_i hx
    cases h
    exact ⟨List.mem_of_getElem? hx, fun y hy => List.mem_of_mem_eraseIdx hy⟩
theorem pop_mem {s r : Stack} {x : Bytes} (h : pop s = .ok (x, r)) : x ∈ s ∧ ∀ y ∈ r, y ∈ s := nipN_mem h
theorem peek_mem {s : Stack} {i : Nat} {x : Bytes} (h : peek s i = .ok x) : x ∈ s := by
  unfold peek at h
  split at h
  · cases h
  · rename_i hx
    cases h
    exact List.mem_of_getElem? hx
theorem popInt_mem {s r : Stack} {n : Int} (h : popInt s = .ok (n, r)) : ∀ y ∈ r, y ∈ s := by
  obtain ⟨x, rfl, _⟩ := popInt_range h
  intro y hy; simp [hy]
theorem dupLoop_mem {n k : Nat} {s r : Stack} (h : dupLoop n k s = .ok r) : ∀ y ∈ r, y ∈ s := by
  induction k generalizing s with
  | zero => simp [dupLoop] at h; subst h; simp
  | succ k ih =>
    simp only [dupLoop, Res.bind_eq_ok] at h
    obtain ⟨x, hx, h⟩ := h
    intro y hy
    have := ih h y hy
    rcases List.mem_cons.mp this with rfl | h
    · exact peek_mem hx
    · exact h
theorem dropLoop_mem {k : Nat} {s r : Stack} (h : dropN.loop k s = .ok r) : ∀ y ∈ r, y ∈ s := by
  induction k generalizing s with
  | zero => simp [dropN.loop] at h; subst h; simp
  | succ k ih =>
    simp only [dropN.loop, Res.bind_eq_ok] at h
    obtain ⟨⟨x, s1⟩, hx, h⟩ := h
    intro y hy
    exact (pop_mem hx).2 y (ih h y hy)
theorem swapLoop_mem {n k : Nat} {s r : Stack} (h : swapN.loop n k s = .ok r) : ∀ y ∈ r, y ∈ s := by
  induction k generalizing s with
  | zero => simp [swapN.loop] at h; subst h; simp
  | succ k ih =>
    simp only [swapN.loop, Res.bind_eq_ok] at h
    obtain ⟨⟨x, s1⟩, hx, h⟩ := h
    intro y hy
    rcases List.mem_cons.mp (ih h y hy) with rfl | h
    · exact (nipN_mem hx).1
    · exact (nipN_mem hx).2 y h
theorem popMany_mem {n : Nat} {s r xs : Stack} (h : popMany n s = .ok (xs, r)) : ∀ y ∈ r, y ∈ s := by
  obtain ⟨rfl, _⟩ := popMany_ok h
  intro y hy; simp [hy]

/-- elements of a new stack are old ones or small -/
def Grows (env : Env) (data : Bytes) (s r : Stack) : Prop :=
  ∀ y ∈ r, y ∈ s ∨ y = data ∨ y.length ≤ 8 ∨ ∃ z, y = env.hash160 z

theorem grows_of_mem {env : Env} {d : Bytes} {s r : Stack} (h : ∀ y ∈ r, y ∈ s) : Grows env d s r :=
  fun y hy => Or.inl (h y hy)
theorem grows_cons {env : Env} {d : Bytes} {s r : Stack} {x : Bytes} (h : ∀ y ∈ r, y ∈ s) (hx : x.length ≤ 8) :
    Grows env d s (x :: r) := by
  intro y hy
  rcases List.mem_cons.mp hy with rfl | hy
  · exact Or.inr (Or.inr (Or.inl hx))
  · exact Or.inl (h y hy)
theorem boolBytes_len (b : Bool) : (boolBytes b).length ≤ 8 := by cases b <;> decide
theorem grows_pushInt {env : Env} {d : Bytes} {s r r' : Stack} {n : Int} (h1 : -2^63 < n) (h2 : n < 2^63)
    (h : ∀ y ∈ r, y ∈ s) (hp : pushInt r n = .ok r') : Grows env d s r' := by
  obtain ⟨v, e, _, h8, _⟩ := ScriptNum.bytes_spec h1 h2
  unfold pushInt at hp
  rw [e] at hp
  cases hp
  exact grows_cons h h8
theorem grows_verify {env : Env} {d : Bytes} {s r r' : Stack} (h : Grows env d s r) (hp : equalVerify r = .ok r') :
    Grows env d s r' := by
  unfold equalVerify popBool at hp
  simp only [Res.bind_eq_ok] at hp
  obtain ⟨⟨v, q⟩, ⟨⟨x, q'⟩, hx, e⟩, hp⟩ := hp
  cases e
  dsimp only at hp
  split at hp
  · cases hp
  · cases hp
    intro y hy
    exact h y ((pop_mem hx).2 y hy)
theorem opEqual_grows {env : Env} {d : Bytes} {s r : Stack} (h : opEqual s = .ok r) : Grows env d s r := by
  unfold opEqual at h
  simp only [Res.bind_eq_ok] at h
  obtain ⟨⟨a, s1⟩, ha, ⟨b, s2⟩, hb, h⟩ := h
  cases h
  exact grows_cons (fun y hy => (pop_mem ha).2 y ((pop_mem hb).2 y hy)) (boolBytes_len _)
theorem opCheckSig_grows {env : Env} {d : Bytes} {s r : Stack} (h : opCheckSig env s = .ok r) : Grows env d s r := by
  unfold opCheckSig at h
  split at h
  · simp only [Res.bind_eq_ok] at h
    obtain ⟨⟨a, s1⟩, ha, ⟨b, s2⟩, hb, h⟩ := h
    have hm : ∀ y ∈ s2, y ∈ s := fun y hy => (pop_mem ha).2 y ((pop_mem hb).2 y hy)
    dsimp only at h
    split at h
    · cases h; exact grows_cons hm (boolBytes_len _)
    · simp only [Res.bind_eq_ok] at h
      obtain ⟨_, _, _, _, _, _, h⟩ := h
      cases h
      exact grows_cons hm (boolBytes_len _)
  · cases h
theorem opCheckMultiSig_grows {env : Env} {d : Bytes} {s r : Stack} (h : opCheckMultiSig env s = .ok r) : Grows env d s r := by
  unfold opCheckMultiSig at h
  simp only [Res.bind_eq_ok] at h
  obtain ⟨⟨n, s1⟩, h1, h⟩ := h
  dsimp only at h
  split at h
  · cases h
  simp only [Res.bind_eq_ok] at h
  obtain ⟨⟨ks, s2⟩, h2, ⟨m, s3⟩, h3, h⟩ := h
  dsimp only at h
  split at h
  · cases h
  split at h
  · cases h
  simp only [Res.bind_eq_ok] at h
  obtain ⟨⟨sg, s4⟩, h4, ⟨x, s5⟩, h5, b, _, h⟩ := h
  cases h
  exact grows_cons (fun y hy => popInt_mem h1 y (popMany_mem h2 y (popInt_mem h3 y (popMany_mem h4 y ((pop_mem h5).2 y hy)))))
    (boolBytes_len _)

theorem dataOp_grows {env : Env} {i : Instruction} {s r : Stack} (hs : SmallStack s) (h : dataOp env i s = .ok r) :
    Grows env i.data s r := by
  unfold dataOp at h
  split at h
  · cases h; exact grows_cons (fun _ h => h) (by simp)
  · cases h
    intro y hy
    rcases List.mem_cons.mp hy with rfl | hy
    · exact Or.inr (Or.inl rfl)
    · exact Or.inl hy
  · have := (i.op.value - 0x50).toNat_lt
    exact grows_pushInt (by omega) (by omega) (fun _ h => h) h
  · cases h; exact grows_of_mem fun _ h => h
  · unfold dupN at h; split at h
    · cases h
    · exact grows_of_mem (dupLoop_mem h)
  · unfold dupN at h; split at h
    · cases h
    · exact grows_of_mem (dupLoop_mem h)
  · unfold dupN at h; split at h
    · cases h
    · exact grows_of_mem (dupLoop_mem h)
  · unfold swapN at h; split at h
    · cases h
    · exact grows_of_mem (swapLoop_mem h)
  · unfold opSize at h
    rw [Res.bind_eq_ok] at h
    obtain ⟨x, hx, h⟩ := h
    have := hs x (peek_mem hx)
    exact grows_pushInt (by omega) (by omega) (fun _ h => h) h
  · unfold dropN at h; split at h
    · cases h
    · exact grows_of_mem (dropLoop_mem h)
  · exact opEqual_grows h
  · rw [Res.bind_eq_ok] at h
    obtain ⟨x, hx, h⟩ := h
    exact grows_verify (opEqual_grows hx) h
  · unfold opAdd at h
    simp only [Res.bind_eq_ok] at h
    obtain ⟨⟨a, s1⟩, ha, ⟨b, s2⟩, hb, h⟩ := h
    obtain ⟨_, _, _, a1, a2⟩ := popInt_range ha
    obtain ⟨_, _, _, b1, b2⟩ := popInt_range hb
    exact grows_pushInt (by omega) (by omega) (fun y hy => popInt_mem ha y (popInt_mem hb y hy)) h
  · unfold opHash160 at h
    simp only [Res.bind_eq_ok] at h
    obtain ⟨⟨a, s1⟩, ha, h⟩ := h
    cases h
    intro y hy
    rcases List.mem_cons.mp hy with rfl | hy
    · exact Or.inr (Or.inr (Or.inr ⟨_, rfl⟩))
    · exact Or.inl ((pop_mem ha).2 y hy)
  · exact opCheckSig_grows h
  · rw [Res.bind_eq_ok] at h
    obtain ⟨x, hx, h⟩ := h
    exact grows_verify (opCheckSig_grows hx) h
  · exact opCheckMultiSig_grows h
  · rw [Res.bind_eq_ok] at h
    obtain ⟨x, hx, h⟩ := h
    exact grows_verify (opCheckMultiSig_grows hx) h
  all_goals (cases h; exact grows_of_mem fun _ h => h)

theorem exec_small {env : Env} (hh : ∀ x, (env.hash160 x).length < 2^62) {t : Token} (hv : t.Valid)
    (ht : t.data.length < 2^62) {vm vm' : State} (hs : SmallStack vm.dstack) (h : exec env (instrOf t) vm = .ok vm') :
    SmallStack vm'.dstack := by
  have hdata : (instrOf t).data = t.data := by
    obtain ⟨o, ho, _⟩ := opcodes_some t.op hv.1
    simp [instrOf, ho]
  unfold exec at h
  split at h
  · cases h; exact hs
  · have pif : ∀ neg, opIf neg vm = .ok vm' → SmallStack vm'.dstack := by
      intro neg h
      unfold opIf at h
      split at h
      · rw [Res.bind_eq_ok] at h
        obtain ⟨⟨b, s1⟩, h1, h⟩ := h
        cases h
        unfold popIfBool at h1
        rw [Res.bind_eq_ok] at h1
        obtain ⟨⟨x, s2⟩, h2, h1⟩ := h1
        dsimp only at h1
        split at h1
        · cases h1
        · split at h1
          · cases h1
          · cases h1
            intro y hy; exact hs y ((pop_mem h2).2 y hy)
      · cases h; exact hs
    unfold opfunc at h
    split at h
    · exact pif _ h
    · exact pif _ h
    · unfold opElse at h; split at h <;> cases h <;> exact hs
    · unfold opEndIf at h; split at h <;> cases h <;> exact hs
    · rw [Res.bind_eq_ok] at h
      obtain ⟨s, h1, h⟩ := h
      cases h
      intro y hy
      rcases dataOp_grows hs h1 y hy with h | h | h | ⟨z, rfl⟩
      · exact hs y h
      · rw [h, hdata]; exact ht
      · omega
      · exact hh z

/-- If running tokens panics, some CHECKMULTISIG was reached with a fault. -/
theorem execAll_panic {env : Env} (hc : CallbacksSafe env) (hh : ∀ x, (env.hash160 x).length < 2^62) {ts : List Token}
    (hv : ∀ t ∈ ts, t.Valid) (ht : ∀ t ∈ ts, t.data.length < 2^62) {vm : State} (hs : SmallStack vm.dstack)
    (h : execAll env ts vm = .panic) :
    ∃ pre t post vm1, ts = pre ++ t :: post ∧ execAll env pre vm = .ok vm1 ∧ (t.op = 0xae ∨ t.op = 0xaf) ∧
      branchShouldSkip vm1 = false ∧ MultisigFault env vm1.dstack := by
  induction ts generalizing vm with
  | nil => simp [execAll] at h
  | cons t ts ih =>
    simp only [execAll] at h
    rw [Res.bind_eq_panic] at h
    rcases h with h | ⟨vm1, h1, h⟩
    · obtain ⟨a, b, c⟩ := exec_panic hc (hv t (by simp)) hs h
      exact ⟨[], t, ts, vm, rfl, rfl, a, b, c⟩
    · obtain ⟨pre, t', post, vm2, e, h2, h3⟩ := ih (fun t h => hv t (by simp [h])) (fun t h => ht t (by simp [h]))
        (exec_small hh (hv t (by simp)) (ht t (by simp)) hs h1) h
      refine ⟨t :: pre, t', post, vm2, by simp [e], ?_, h3⟩
      simp only [execAll]
      rw [h1, Res.ok_bind, h2]

theorem execAll_small {env : Env} (hh : ∀ x, (env.hash160 x).length < 2^62) {ts : List Token}
    (hv : ∀ t ∈ ts, t.Valid) (ht : ∀ t ∈ ts, t.data.length < 2^62) {vm vm' : State} (hs : SmallStack vm.dstack)
    (h : execAll env ts vm = .ok vm') : SmallStack vm'.dstack := by
  induction ts generalizing vm with
  | nil => simp [execAll] at h; subst h; exact hs
  | cons t ts ih =>
    simp only [execAll, Res.bind_eq_ok] at h
    obtain ⟨vm1, h1, h⟩ := h
    exact ih (fun t h => hv t (by simp [h])) (fun t h => ht t (by simp [h]))
        (exec_small hh (hv t (by simp)) (ht t (by simp)) hs h1) h

theorem data_le_enc {ts : List Token} {t : Token} (h : t ∈ ts) : t.data.length ≤ (encTokens ts).length := by
  induction ts with
  | nil => cases h
  | cons a ts ih =>
    simp only [encTokens, List.flatMap_cons, List.length_append] at ih ⊢
    rcases List.mem_cons.mp h with rfl | h
    · rw [enc_length]; omega
    · have := ih h; omega

end Toku.VM
