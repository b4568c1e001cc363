import Verif.Proof.VMS
import Verif.Proof.VMSKeep
import Verif.Proof.VM3
/-
A multisig check of the stateful engine that succeeds: each signature was good in some state.
-/
namespace Toku.VMS
open Toku.VM Toku.Script Toku.Spec Toku.Buffer

variable {σ : Type} {Inv : σ → Prop} {es : Env σ}

theorem bind_ok {α β : Type} {m : M σ α} {g : α → M σ β} {s s' : σ} {b : β} (h : (m >>= g) s = (.ok b, s')) :
    ∃ a s1, m s = (.ok a, s1) ∧ g a s1 = (.ok b, s') := by
  change VMS.bind m g s = _ at h
  unfold VMS.bind at h
  cases hm : m s with
  | mk r s1 =>
    rw [hm] at h
    cases r with
    | ok a => exact ⟨a, s1, rfl, h⟩
    | err e => cases h
    | panic => cases h

theorem lift_ok {α : Type} {r : Res α} {s s' : σ} {a : α} (h : (lift r : M σ α) s = (.ok a, s')) : r = .ok a ∧ s' = s := by
  unfold lift at h
  cases h
  exact ⟨rfl, rfl⟩

theorem bind_lift_ok {α β : Type} {r : Res α} {g : α → M σ β} {s s' : σ} {b : β} (h : ((lift r : M σ α) >>= g) s = (.ok b, s')) :
    ∃ a, r = .ok a ∧ g a s = (.ok b, s') := by
  obtain ⟨a, s1, h1, h2⟩ := bind_ok h
  obtain ⟨h3, h4⟩ := lift_ok h1
  exact ⟨a, h3, by rw [← h4]; exact h2⟩

/-- The signature with its hash type byte is good for the key, with the hash computed in some state with the invariant. -/
def OkIn (Inv : σ → Prop) (es : Env σ) (sig key : Bytes) : Prop :=
  ∃ der t hash s1 s2, sig = der ++ [t] ∧ Inv s1 ∧ es.hasher t s1 = (.ok hash, s2) ∧ es.verifier hash der key = .ok ()

theorem checkOne_sound {sig key : Bytes} {s s' : σ} (hs : Inv s) (h : checkOne es sig key s = (.ok true, s')) : OkIn Inv es sig key := by
  unfold checkOne at h
  obtain ⟨⟨t, der⟩, h1, k1⟩ := bind_lift_ok h
  dsimp only at k1
  obtain ⟨hash, s2, h2, k2⟩ := bind_ok k1
  obtain ⟨h3, _⟩ := lift_ok k2
  have hsig : sig = der ++ [t] := by
    unfold splitSig at h1
    rcases ScriptNum.nil_or_snoc sig with rfl | ⟨d, u, rfl⟩
    · cases h1
    · rw [List.getLast?_concat] at h1
      cases h1
      rw [List.dropLast_concat]
  refine ⟨der, t, hash, s, s2, hsig, hs, h2, ?_⟩
  cases hv : es.verifier hash der key with
  | ok u => rfl
  | err e => rw [hv] at h3; cases h3
  | panic => rw [hv] at h3; cases h3

theorem multisigLoop_sound (hk : ∀ t, Keeps Inv (es.hasher t)) (keys : List Bytes) : ∀ (sigs : List Bytes) (s s' : σ), Inv s →
    sigs.length ≤ keys.length → multisigLoop es sigs keys s = (.ok true, s') → Matching (OkIn Inv es) sigs keys := by
  induction keys with
  | nil =>
    intro sigs s s' _ hl _
    obtain rfl : sigs = [] := List.eq_nil_of_length_eq_zero (by simpa using hl)
    exact ⟨[], .slnil, .nil⟩
  | cons key keys ih =>
    intro sigs s s' hs hl h
    match sigs with
    | [] => exact ⟨[], List.nil_sublist _, .nil⟩
    | sig :: sigs =>
      simp only [multisigLoop] at h
      obtain ⟨v, s1, h1, k⟩ := bind_ok h
      have hs1 : Inv s1 := by
        have := checkOne_keeps hk sig key s hs
        rwa [h1] at this
      cases v with
      | true =>
        rw [if_pos rfl] at k
        split_ifs at k with c
        · cases k
        · obtain ⟨c', hsub, hf⟩ := ih sigs s1 s' hs1 (by omega) k
          exact ⟨key :: c', hsub.cons_cons key, .cons (checkOne_sound hs h1) hf⟩
      | false =>
        rw [if_neg (by simp)] at k
        split_ifs at k with c
        · cases k
        · exact matching_skip (ih (sig :: sigs) s1 s' hs1 (by omega) k)

/-- What a multisig check that returns leaves, and what it took to leave true. -/
theorem opCheckMultiSig_sound (hk : ∀ t, Keeps Inv (es.hasher t)) {K : List Bytes} (hK : K.length < 2^31) {m : ℕ} (hm : m ≤ K.length)
    {x y : Bytes} (hx : ScriptNum.make x 4 = .ok (K.length : Int)) (hy : ScriptNum.make y 4 = .ok (m : Int)) {rest st : Stack} {s s' : σ}
    (hs : Inv s) (h : opCheckMultiSig es (x :: (K.reverse ++ y :: rest)) s = (.ok st, s')) :
    ∃ S d rest' b, rest = S.reverse ++ d :: rest' ∧ S.length = m ∧ st = boolBytes b :: rest' ∧
      (b = true → Matching (OkIn Inv es) S K) := by
  unfold opCheckMultiSig at h
  obtain ⟨⟨nk, r1⟩, h1, k1⟩ := bind_lift_ok h
  rw [popInt_cons hx] at h1
  cases h1
  dsimp only at k1
  rw [int32_small hK, if_neg (by omega)] at k1
  obtain ⟨⟨keys, r2⟩, h2, k2⟩ := bind_lift_ok k1
  have hp : popMany (K.length : Int).toNat (K.reverse ++ y :: rest) = .ok (K.reverse, y :: rest) := by
    have := popMany_append K.reverse (y :: rest)
    simpa using this
  rw [hp] at h2
  cases h2
  dsimp only at k2
  obtain ⟨⟨ns, r3⟩, h3, k3⟩ := bind_lift_ok k2
  rw [popInt_cons hy] at h3
  cases h3
  dsimp only at k3
  rw [int32_small (by omega), if_neg (by omega), if_neg (by omega)] at k3
  obtain ⟨⟨sigs, r4⟩, h4, k4⟩ := bind_lift_ok k3
  obtain ⟨hr, hlen⟩ := popMany_ok h4
  dsimp only at k4
  obtain ⟨⟨d, r5⟩, h5, k5⟩ := bind_lift_ok k4
  dsimp only at k5
  obtain ⟨b, s6, h6, k6⟩ := bind_ok k5
  obtain ⟨h7, _⟩ := lift_ok k6
  cases h7
  have hr4 : r4 = d :: r5 := by
    cases r4 with
    | nil => cases h5
    | cons a l => cases h5; rfl
  have hlen' : sigs.length = m := by omega
  refine ⟨sigs.reverse, d, r5, b, by rw [List.reverse_reverse, hr, hr4], by rw [List.length_reverse, hlen'], rfl, ?_⟩
  rintro rfl
  have := multisigLoop_sound hk K.reverse sigs _ _ hs (by rw [List.length_reverse]; omega) h6
  rw [← matching_reverse, List.reverse_reverse]
  exact this

/-- An instruction that does not panic without a hash leaves the state as it is. -/
theorem exec_pure (es : Env σ) (i : Instruction) (vm vm' : State)
    (h : VM.exec ⟨es.hash160, some fun _ => .panic, some es.verifier⟩ i vm = .ok vm') (s : σ) : exec es i vm s = (.ok vm', s) := by
  obtain ⟨s', e, hs'⟩ := exec_sim (Inv := fun x => x = s) (px := False)
    (env := ⟨es.hash160, some fun _ => .panic, some es.verifier⟩) (es := es) (hasher := fun _ => .panic)
    ⟨rfl, rfl, rfl, fun _ hp => absurd rfl hp⟩ i vm (by rw [h]; simp) s rfl
  rw [e, h, hs']

/-- A run of pushes and one more instruction. -/
theorem runLoop_pushes (es : Env σ) (t : Token) (ht : t.Valid) : ∀ (ts : List Token), (∀ t ∈ ts, IsPush t) → ∀ (b : Buffer) (fuel : ℕ) (st : Stack) (s : σ),
    Rd b (encTokens (ts ++ [t])) → ts.length + 1 < fuel → ∀ vm s', runLoop es fuel b ⟨st, []⟩ s = (.ok vm, s') →
    exec es (instrOf t) ⟨(ts.map pushValue).reverse ++ st, []⟩ s = (.ok vm, s') := by
  intro ts
  induction ts with
  | nil =>
    intro _ b fuel st s h hf vm s' hx
    obtain ⟨f, rfl⟩ : ∃ f, fuel = f + 1 + 1 := ⟨fuel - 2, by simp at hf; omega⟩
    simp only [List.nil_append, encTokens, List.flatMap_cons, List.flatMap_nil, List.append_nil] at h
    unfold runLoop at hx
    rcases nextInstruction_cases h with ⟨e, _⟩ | ⟨hs, _⟩ | ⟨t', rest, b', hv', e, e1, h1⟩
    · simp [Token.enc] at e
    · rw [← List.append_nil t.enc] at hs; exact absurd hs (not_stuck_enc ht _)
    · rw [← List.append_nil t.enc] at e
      obtain ⟨rfl, rfl⟩ := enc_inj ht hv' e
      obtain ⟨p, h2, k⟩ := bind_lift_ok hx
      rw [e1] at h2
      cases h2
      dsimp only at k
      obtain ⟨vm1, s2, h3, k2⟩ := bind_ok k
      unfold runLoop at k2
      rcases nextInstruction_cases h1 with ⟨_, e⟩ | ⟨hs, _⟩ | ⟨t', rest, b', hv', e, _⟩
      · obtain ⟨p, h4, k3⟩ := bind_lift_ok k2
        rw [e] at h4
        cases h4
        dsimp only at k3
        obtain ⟨h5, h6⟩ := lift_ok k3
        cases h5
        rw [h6]
        exact h3
      · exact absurd hs not_stuck_nil
      · simp [Token.enc] at e
  | cons u ts ih =>
    intro hp b fuel st s h hf vm s' hx
    obtain ⟨f, rfl⟩ : ∃ f, fuel = f + 1 := ⟨fuel - 1, by simp at hf; omega⟩
    simp only [List.cons_append, encTokens, List.flatMap_cons] at h
    have hu := hp u (by simp)
    unfold runLoop at hx
    rcases nextInstruction_cases h with ⟨e, _⟩ | ⟨hs, _⟩ | ⟨t', rest, b', hv', e, e1, h1⟩
    · simp [Token.enc] at e
    · exact absurd hs (not_stuck_enc hu.1 _)
    · obtain ⟨rfl, rfl⟩ := enc_inj hu.1 hv' e
      obtain ⟨p, h2, k⟩ := bind_lift_ok hx
      rw [e1] at h2
      cases h2
      dsimp only at k
      have hex := exec_pure es (instrOf u) ⟨st, []⟩ ⟨pushValue u :: st, []⟩ (by
        rw [exec_data _ hu.1 (isPush_not_cond hu) _ rfl, push_token _ hu]; rfl) s
      obtain ⟨vm1, s2, h3, k2⟩ := bind_ok k
      rw [hex] at h3
      cases h3
      have := ih (fun t ht => hp t (by simp [ht])) b' f _ _ h1 (by simp at hf; omega) vm s' k2
      simpa using this

/-- A multisig script that succeeds on the stack `rest`. -/
theorem execute_multisig (hk : ∀ t, Keeps Inv (es.hasher t)) {tm tn : Token} {ks : List Token} {K : List Bytes} {m : ℕ}
    (hK : K.length < 2^31) (hm : m ≤ K.length) (p1 : IsPush tm) (v1 : ScriptNum.make (pushValue tm) 4 = .ok (m : Int))
    (p2 : IsPush tn) (v2 : ScriptNum.make (pushValue tn) 4 = .ok (K.length : Int)) (hks : ∀ t ∈ ks, IsPush t)
    (hkeys : ks.map pushValue = K) (hl : (encTokens (tm :: ks ++ [tn, ⟨0xae, []⟩])).length < 2^62) {rest : Stack} {s s' : σ} {vm : State}
    (hs : Inv s) (h : execute es (encTokens (tm :: ks ++ [tn, ⟨0xae, []⟩])) true ⟨rest, []⟩ s = (.ok vm, s')) :
    ∃ S d rest', rest = S.reverse ++ d :: rest' ∧ S.length = m ∧ Matching (OkIn Inv es) S K := by
  unfold execute at h
  obtain ⟨vm1, s1, h1, k⟩ := bind_ok h
  obtain ⟨h2, _⟩ := lift_ok k
  have hsplit : tm :: ks ++ [tn, ⟨0xae, []⟩] = (tm :: ks ++ [tn]) ++ [⟨0xae, []⟩] := by simp
  have hge := encTokens_length_ge (tm :: ks ++ [tn, ⟨0xae, []⟩])
  have hr := rd_reader _ hl
  rw [hsplit] at h1 hr hge
  have h3 := runLoop_pushes es ⟨0xae, []⟩ ⟨by decide, by decide⟩ (tm :: ks ++ [tn]) (by
    intro t ht
    simp only [List.mem_append, List.mem_cons, List.not_mem_nil, or_false] at ht
    rcases ht with (rfl | ht) | rfl
    · exact p1
    · exact hks t ht
    · exact p2) _ _ rest s hr (by simp at hge ⊢; omega) vm1 s1 h1
  have he : ((tm :: ks ++ [tn]).map pushValue).reverse ++ rest = pushValue tn :: (K.reverse ++ pushValue tm :: rest) := by
    simp [← hkeys]
  rw [he] at h3
  have h4 : ∃ st, opCheckMultiSig es (pushValue tn :: (K.reverse ++ pushValue tm :: rest)) s = (.ok st, s1) ∧ vm1 = ⟨st, []⟩ := by
    have hex : exec es (instrOf ⟨0xae, []⟩) ⟨pushValue tn :: (K.reverse ++ pushValue tm :: rest), []⟩ =
        (opCheckMultiSig es (pushValue tn :: (K.reverse ++ pushValue tm :: rest)) >>= fun st => lift (.ok ⟨st, []⟩)) := rfl
    rw [hex] at h3
    obtain ⟨st, s2, e1, e2⟩ := bind_ok h3
    obtain ⟨e3, e4⟩ := lift_ok e2
    cases e3
    exact ⟨st, by rw [e4]; exact e1, rfl⟩
  obtain ⟨st, h4, rfl⟩ := h4
  obtain ⟨S, d, rest', b, e1, e2, rfl, e4⟩ := opCheckMultiSig_sound hk hK hm v2 v1 hs h4
  refine ⟨S, d, rest', e1, e2, e4 ?_⟩
  cases b with
  | true => rfl
  | false => cases h2

end Toku.VMS
