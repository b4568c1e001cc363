import Verif.Model.Party
import Verif.Props.MpcLeak
/-
Property C113: the parties of two-party signing called in any order, after a failure, and after Close.
-/
namespace Toku.Props
open Toku Toku.Spec Toku.Curve Toku.Mpc

/-- The number of a ciphertext is there and positive. -/
def ValidCt (ct : Option ℤ) : Prop := ∃ c, ct = some c ∧ 0 < c

instance (ct : Option ℤ) : Decidable (ValidCt ct) :=
  match ct with
  | none => isFalse (by rintro ⟨_, h, _⟩; cases h)
  | some c => if h : 0 < c then isTrue ⟨c, rfl, h⟩ else isFalse (by rintro ⟨_, e, h'⟩; cases e; exact h h')

/-- What a closed party answers. The only thing it depends on apart from the arguments is whether phase 2 had been completed
before (`started`). -/
def closedAnswer (started : Bool) : Call → Res Out
  | .phase1 _ => .panic
  | .phase2 .. => .panic
  | .phase3 _ => if started then .ok (.point ⟨0, 0⟩) else .panic
  | .phase4 .. => .panic
  | .phase5 _ ct => if ValidCt ct then .panic else .err Paillier.errCiphertext
  | .alice5 ct => if ValidCt ct then .panic else .err Paillier.errCiphertext
  | .alice6 a b => (alicePhase6 a b).bind fun s => .ok (.num s)
  | .bob2 .. => .panic
  | .bob3 _ => if started then .ok (.point ⟨0, 0⟩) else .panic
  | .bob5 ct => if ValidCt ct then .panic else .err Paillier.errCiphertext
  | .bob6 R s => (finish R s).bind fun b => .ok (.sig b)
  | .close => .ok .done

section
variable [Hashes]

/-- Closed, and all numbers wiped that had been set. -/
private structure Shut (o : Obj) : Prop where
  prv : o.prv = none
  encprv : o.encprv = none
  k : ∀ k, o.k = some k → k = 0
  both : o.k.isSome = o.kinv.isSome

omit [Hashes] in
private theorem decryptNil_none (ct : Option ℤ) :
    decryptNil none ct = if ValidCt ct then .panic else .err Paillier.errCiphertext := by
  unfold decryptNil Paillier.positive
  cases ct with
  | none => rw [if_neg (by rintro ⟨_, h, _⟩; cases h)]
  | some c =>
    by_cases h : c > 0
    · have hv : ValidCt (some c) := ⟨c, rfl, h⟩
      rw [if_pos hv]; dsimp only; rw [if_pos h]
    · rw [if_neg (by rintro ⟨_, e, h'⟩; cases e; exact h h')]; dsimp only; rw [if_neg h]

omit [Hashes] in
private theorem closed_bind {α β : Type} (ct : Option ℤ) (f : α → Res β) :
    (if ValidCt ct then (.panic : Res α) else .err Paillier.errCiphertext).bind f =
      if ValidCt ct then .panic else .err Paillier.errCiphertext := by
  split <;> rfl

omit [Hashes] in
private theorem mult_nil (x y : ℤ) : mult x y (natToBE 0) = .ok (0, 0) := by
  have : natToBE 0 = [] := by decide
  rw [this]
  rfl

omit [Hashes] in
private theorem mult_zero (k : Bytes) : mult 0 0 k = .ok (0, 0) := by
  have h := mult_coords 0 k
  rw [nsmul_zero] at h
  exact h

private theorem shut_step {o : Obj} (h : Shut o) (c : Call) :
    (o.step c).2 = closedAnswer o.k.isSome c ∧ Shut (o.step c).1 ∧ (o.step c).1.k.isSome = o.k.isSome := by
  obtain ⟨hp, he, hk, hb⟩ := h
  obtain ⟨prv, k, kinv, hash, encprv, secret⟩ := o
  dsimp only at hp he hk hb
  subst hp he
  have three : ∀ r : Scalar, (⟨none, k, kinv, hash, none, secret⟩ : Obj).phase3 r =
      if k.isSome then .ok ⟨0, 0⟩ else .panic := by
    intro r
    unfold Obj.phase3
    cases k with
    | none => rfl
    | some k =>
      cases hk k rfl
      dsimp only
      rw [mult_nil]
      rfl
  cases c
  case close =>
    unfold Obj.step Obj.close
    cases k with
    | none => exact ⟨rfl, ⟨rfl, rfl, hk, hb⟩, rfl⟩
    | some k =>
      cases kinv with
      | none => cases hb
      | some kinv => exact ⟨rfl, ⟨rfl, rfl, fun k e => (Option.some.inj e).symm, rfl⟩, rfl⟩
  case phase3 r =>
    refine ⟨?_, ⟨rfl, rfl, hk, hb⟩, rfl⟩
    unfold Obj.step closedAnswer
    dsimp only
    rw [three]
    cases k <;> rfl
  case bob3 r =>
    refine ⟨?_, ⟨rfl, rfl, hk, hb⟩, rfl⟩
    unfold Obj.step closedAnswer
    dsimp only
    rw [three]
    cases k with
    | none => rfl
    | some k =>
      change (mult 0 0 (natToBE secret)).bind _ = _
      rw [mult_zero]
      rfl
  case phase5 R ct =>
    refine ⟨?_, ⟨rfl, rfl, hk, hb⟩, rfl⟩
    unfold Obj.step closedAnswer Obj.partialS
    dsimp only
    rw [decryptNil_none, closed_bind, closed_bind]
  case alice5 ct =>
    refine ⟨?_, ⟨rfl, rfl, hk, hb⟩, rfl⟩
    unfold Obj.step closedAnswer Obj.partialS
    dsimp only
    rw [decryptNil_none, closed_bind, closed_bind]
  case bob5 ct =>
    refine ⟨?_, ⟨rfl, rfl, hk, hb⟩, rfl⟩
    unfold Obj.step closedAnswer
    dsimp only
    rw [decryptNil_none, closed_bind]
  all_goals exact ⟨rfl, ⟨rfl, rfl, hk, hb⟩, rfl⟩

private theorem shut_results : ∀ (cs : List Call) {o : Obj}, Shut o → o.results cs = cs.map (closedAnswer o.k.isSome) := by
  intro cs
  induction cs with
  | nil => intro o _; rfl
  | cons c cs ih =>
    intro o h
    obtain ⟨e, s, b⟩ := shut_step h c
    unfold Obj.results
    rw [e, ih s, b]
    rfl

/-- The nonce and its inverse are set together, and the nonce is one of `NonceRFC6979` for the key. -/
private theorem phase2_both {o : Obj} (h : o.k.isSome = o.kinv.isSome) (fuel : ℕ) (primes : Option (ℕ × ℕ)) (rnd : Option ℕ)
    (hash : Bytes) : (o.phase2 fuel primes rnd hash).1.k.isSome = (o.phase2 fuel primes rnd hash).1.kinv.isSome := by
  unfold Obj.phase2
  cases o.prv with
  | none => exact h
  | some prv =>
    cases primes with
    | none => exact h
    | some pq =>
      obtain ⟨p, q⟩ := pq
      cases rnd with
      | none => exact h
      | some rnd =>
        dsimp only
        cases encryptKey (Paillier.generateKeyPair p q).1 rnd prv.d with
        | err e => exact h
        | panic => exact h
        | ok c =>
          dsimp only
          cases hn : Ecdsa.nonce N fuel prv.d hash with
          | none => exact h
          | some k =>
            obtain ⟨kinv, e, _⟩ := inv_ok (Ecdsa.nonce_range hn)
            dsimp only
            rw [e]
            rfl

private theorem step_both {o : Obj} (h : o.k.isSome = o.kinv.isSome) (c : Call) :
    (o.step c).1.k.isSome = (o.step c).1.kinv.isSome := by
  cases c
  case phase2 f p r hash => exact phase2_both h f p r hash
  case bob2 f p r hash => exact phase2_both h f p r hash
  case close =>
    obtain ⟨prv, k, kinv, hash, encprv, secret⟩ := o
    dsimp only at h
    unfold Obj.step Obj.close
    cases k <;> cases kinv <;> first | rfl | cases h
  all_goals exact h

private theorem run_both (cs : List Call) : ∀ {o : Obj}, o.k.isSome = o.kinv.isSome → (o.run cs).k.isSome = (o.run cs).kinv.isSome := by
  induction cs with
  | nil => intro o h; exact h
  | cons c cs ih => intro o h; exact ih (step_both h c)

private theorem close_shut {o : Obj} (h : o.k.isSome = o.kinv.isSome) :
    (o.step .close).2 = .ok .done ∧ Shut (o.step .close).1 ∧ (o.step .close).1.k.isSome = o.k.isSome := by
  obtain ⟨prv, k, kinv, hash, encprv, secret⟩ := o
  dsimp only at h
  unfold Obj.step Obj.close
  cases k with
  | none => exact ⟨rfl, ⟨rfl, rfl, fun k e => (nomatch e), h⟩, rfl⟩
  | some k =>
    cases kinv with
    | none => cases h
    | some kinv => exact ⟨rfl, ⟨rfl, rfl, fun k e => (Option.some.inj e).symm, rfl⟩, rfl⟩

/-- **C113.** A closed ECDSA party, Alice or Bob: whatever the key, the secret and the calls before, Close succeeds, and every
later call of any method, in any order and number, gets the answer of `closedAnswer`, in which neither the key, the
nonce, the hash, the Paillier key nor Bob's secret occurs. -/
theorem C113_closed (prv : Keys.PrvKey) (secret : ℕ) (before after : List Call) :
    (((newObj prv secret).run before).step .close).2 = .ok .done ∧
    (((newObj prv secret).run before).step .close).1.results after =
      after.map (closedAnswer ((newObj prv secret).run before).k.isSome) := by
  have hb := run_both (o := newObj prv secret) before rfl
  obtain ⟨e, s, b⟩ := close_shut hb
  exact ⟨e, by rw [shut_results after s, b]⟩

/-! ### The order of the calls -/

/-- A call of phase 2. -/
def IsStart : Call → Prop
  | .phase2 .. => True
  | .bob2 .. => True
  | _ => False

/-- What a call of phase 2 does: nothing on a closed object; otherwise, if it succeeds, the hash is stored with its nonce, and
if it does not, the hash is stored and the nonce stays. -/
private theorem phase2_cases (o : Obj) (prv : Keys.PrvKey) (hp : o.prv = some prv) (fuel : ℕ) (primes : Option (ℕ × ℕ)) (rnd : Option ℕ)
    (hash : Bytes) :
    (∃ k x, Ecdsa.nonce N fuel prv.d hash = some k ∧ (o.phase2 fuel primes rnd hash).2 = .ok x ∧ x.2.2 = scalarOf (k • G) ∧
      (o.phase2 fuel primes rnd hash).1.k = some k ∧ (o.phase2 fuel primes rnd hash).1.hash = hash ∧
      (o.phase2 fuel primes rnd hash).1.prv = some prv) ∨
    ((∀ x, (o.phase2 fuel primes rnd hash).2 ≠ .ok x) ∧ (o.phase2 fuel primes rnd hash).1.k = o.k ∧
      (o.phase2 fuel primes rnd hash).1.prv = some prv) := by
  obtain ⟨prv', k, kinv, hash', encprv, secret⟩ := o
  dsimp only at hp
  subst hp
  unfold Obj.phase2
  cases primes with
  | none => exact .inr ⟨fun x e => (nomatch e), rfl, rfl⟩
  | some pq =>
    obtain ⟨p, q⟩ := pq
    cases rnd with
    | none => exact .inr ⟨fun x e => (nomatch e), rfl, rfl⟩
    | some rnd =>
      dsimp only
      cases encryptKey (Paillier.generateKeyPair p q).1 rnd prv.d with
      | err e => exact .inr ⟨fun x e => (nomatch e), rfl, rfl⟩
      | panic => exact .inr ⟨fun x e => (nomatch e), rfl, rfl⟩
      | ok c =>
        dsimp only
        cases hn : Ecdsa.nonce N fuel prv.d hash with
        | none => exact .inr ⟨fun x e => (nomatch e), rfl, rfl⟩
        | some k =>
          left
          dsimp only
          rw [baseMult_coords, natOfBE_natToBE]
          exact ⟨k, _, rfl, rfl, rfl, rfl, rfl, rfl⟩

/-- Whether a call of phase 2 succeeds is whether the nonce is stored. -/
private theorem start_iff (o : Obj) (c : Call) (hc : IsStart c) :
    ((∃ out, (o.step c).2 = .ok out) ∧ (o.step c).1.k.isSome = true) ∨
    ((∀ out, (o.step c).2 ≠ .ok out) ∧ (o.step c).1.k = o.k) := by
  cases hp : o.prv with
  | none =>
    right
    cases c
    case phase2 f p r h =>
      unfold Obj.step Obj.phase2
      dsimp only
      rw [hp]
      exact ⟨fun out e => (nomatch e), rfl⟩
    case bob2 f p r h =>
      unfold Obj.step Obj.phase2
      dsimp only
      rw [hp]
      exact ⟨fun out e => (nomatch e), rfl⟩
    all_goals exact hc.elim
  | some prv =>
    cases c
    case phase2 f p r h =>
      unfold Obj.step
      dsimp only
      rcases phase2_cases o prv hp f p r h with ⟨k, x, _, e, _, e', _⟩ | ⟨e, e', _⟩
      · left
        rw [e, e']
        exact ⟨⟨_, rfl⟩, rfl⟩
      · right
        refine ⟨fun out h' => ?_, e'⟩
        obtain ⟨x, hx, _⟩ := Res.bind_eq_ok.mp h'
        exact e x hx
    case bob2 f p r h =>
      unfold Obj.step
      dsimp only
      rcases phase2_cases o prv hp f p r h with ⟨k, x, _, e, hx, e', _⟩ | ⟨e, e', _⟩
      · left
        rw [e, e']
        dsimp only
        rw [hx, mult_scalar]
        exact ⟨⟨_, rfl⟩, rfl⟩
      · right
        refine ⟨fun out h' => ?_, e'⟩
        generalize (o.phase2 f p r h) = z at e h'
        obtain ⟨o', r⟩ := z
        dsimp only at e h'
        cases r with
        | ok x => exact e x rfl
        | err e => dsimp only at h'; split at h' <;> cases h'
        | panic => cases h'
    all_goals exact hc.elim

private theorem other_k (o : Obj) (c : Call) (hc : ¬ IsStart c) : (o.step c).1.k.isSome = o.k.isSome := by
  cases c
  case phase2 => exact (hc trivial).elim
  case bob2 => exact (hc trivial).elim
  case close =>
    obtain ⟨prv, k, kinv, hash, encprv, secret⟩ := o
    unfold Obj.step Obj.close
    cases k <;> cases kinv <;> rfl
  all_goals rfl

omit [Hashes] in
private theorem run_append [Hashes] (o : Obj) (a b : List Call) : o.run (a ++ b) = (o.run a).run b := List.foldl_append

/-- **C113**, the order: the nonce is there exactly if some call of phase 2 has succeeded, whatever else has been called. -/
theorem C113_started (prv : Keys.PrvKey) (secret : ℕ) (cs : List Call) :
    ((newObj prv secret).run cs).k.isSome = true ↔
      ∃ pre c post, cs = pre ++ c :: post ∧ IsStart c ∧ ∃ out, (((newObj prv secret).run pre).step c).2 = .ok out := by
  induction cs using List.reverseRecOn with
  | nil =>
    refine ⟨fun h => (by cases h), fun ⟨pre, c, post, h, _⟩ => ?_⟩
    have := congrArg List.length h
    simp at this
  | append_singleton cs c ih =>
    have step : (newObj prv secret).run (cs ++ [c]) = (((newObj prv secret).run cs).step c).1 := run_append _ _ _
    have split : ∀ pre d post, cs ++ [c] = pre ++ d :: post → (pre = cs ∧ d = c) ∨ ∃ post', cs = pre ++ d :: post' := by
      intro pre d post h
      rcases List.eq_nil_or_concat post with rfl | ⟨p, x, rfl⟩
      · obtain ⟨h1, h2⟩ := List.append_inj' h rfl
        exact .inl ⟨h1.symm, (List.cons.inj h2).1.symm⟩
      · right
        rw [List.concat_eq_append, ← List.cons_append, ← List.append_assoc] at h
        exact ⟨p, (List.append_inj' h rfl).1⟩
    rw [step]
    by_cases hc : IsStart c
    · rcases start_iff ((newObj prv secret).run cs) c hc with ⟨ho, hk⟩ | ⟨ho, hk⟩
      · exact ⟨fun _ => ⟨cs, c, [], rfl, hc, ho⟩, fun _ => hk⟩
      · rw [hk, ih]
        constructor
        · rintro ⟨pre, d, post, rfl, hd⟩
          exact ⟨pre, d, post ++ [c], by simp, hd⟩
        · rintro ⟨pre, d, post, h, hd, out, hout⟩
          rcases split pre d post h with ⟨rfl, rfl⟩ | ⟨post', h'⟩
          · exact (ho out hout).elim
          · exact ⟨pre, d, post', h', hd, out, hout⟩
    · rw [other_k _ _ hc, ih]
      constructor
      · rintro ⟨pre, d, post, rfl, hd⟩
        exact ⟨pre, d, post ++ [c], by simp, hd⟩
      · rintro ⟨pre, d, post, h, hd, out, hout⟩
        rcases split pre d post h with ⟨rfl, rfl⟩ | ⟨post', h'⟩
        · exact (hc hd).elim
        · exact ⟨pre, d, post', h', hd, out, hout⟩

/-- **C113**, phase 3: it panics exactly if no call of phase 2 has succeeded (Bob's too). -/
theorem C113_phase3 (prv : Keys.PrvKey) (secret : ℕ) (cs : List Call) (q : Pt) :
    ((((newObj prv secret).run cs).step (.phase3 (scalarOf q))).2 = .panic ↔
      ¬ ∃ pre c post, cs = pre ++ c :: post ∧ IsStart c ∧ ∃ out, (((newObj prv secret).run pre).step c).2 = .ok out) ∧
    ((((newObj prv secret).run cs).step (.bob3 (scalarOf q))).2 = .panic ↔
      ¬ ∃ pre c post, cs = pre ++ c :: post ∧ IsStart c ∧ ∃ out, (((newObj prv secret).run pre).step c).2 = .ok out) := by
  rw [← C113_started]
  generalize (newObj prv secret).run cs = o
  unfold Obj.step Obj.phase3
  dsimp only
  cases o.k with
  | none => exact ⟨⟨fun _ h => (by cases h), fun _ => rfl⟩, ⟨fun _ h => (by cases h), fun _ => rfl⟩⟩
  | some k =>
    dsimp only
    rw [mult_scalar]
    change ((Res.ok (Out.point (scalarOf (k • q)))) = .panic ↔ _) ∧
      (((mult (scalarOf (k • q)).x (scalarOf (k • q)).y (natToBE o.secret)).bind fun t => .ok (Out.point ⟨t.1, t.2⟩)) = .panic ↔ _)
    rw [mult_scalar]
    exact ⟨⟨fun h => (by cases h), fun h => (h rfl).elim⟩, ⟨fun h => (by cases h), fun h => (h rfl).elim⟩⟩

/-- **C113**, the two models of a party agree: on an object that is not closed the phases return what they return in
Model/Mpc.lean, about which C71, C72 and C90 are. -/
theorem C113_agrees (o : Obj) (prv : Keys.PrvKey) (hp : o.prv = some prv) :
    (∀ fuel p q rnd hash party x, (o.live prv).phase2 fuel p q rnd hash = .ok (party, x) →
      (o.phase2 fuel (some (p, q)) (some rnd) hash).2 = .ok x ∧ (o.phase2 fuel (some (p, q)) (some rnd) hash).1.live prv = party) ∧
    (∀ r2, o.phase3 r2 = (o.live prv).phase3 r2) ∧
    (∀ ct, o.partialS ct = (o.live prv).partialS ct) := by
  refine ⟨?_, fun r2 => rfl, fun ct => rfl⟩
  intro fuel p q rnd hash party x h
  unfold EcdsaParty.phase2 at h
  unfold Obj.phase2
  rw [hp]
  dsimp only
  have e : (o.live prv).prv.d = prv.d := rfl
  rw [e] at h
  cases hn : Ecdsa.nonce N fuel prv.d hash with
  | none => rw [hn] at h; cases h
  | some k =>
    rw [hn] at h
    dsimp only at h
    unfold EcdsaParty.phase2With at h
    obtain ⟨c, hc, h⟩ := Res.bind_eq_ok.mp h
    obtain ⟨⟨rx, ry⟩, hr, h⟩ := Res.bind_eq_ok.mp h
    cases h
    rw [e] at hc
    rw [hc]
    dsimp only
    rw [hr]
    exact ⟨rfl, rfl⟩

/-! ### The nonce and the hash -/

/-- **C113**, the nonce, partial: if no call of phase 2 has failed and the party is not closed, the nonce held is the one
of `NonceRFC6979` for the hash held. Missing: that it is so after a failed call; there it is false, see
`C113_failed_phase2`. -/
theorem C113_nonce_partial (prv : Keys.PrvKey) (secret : ℕ) (cs : List Call)
    (hs : ∀ pre c post, cs = pre ++ c :: post → IsStart c → ∃ out, (((newObj prv secret).run pre).step c).2 = .ok out)
    (hc : Call.close ∉ cs) (k : ℕ) (hk : ((newObj prv secret).run cs).k = some k) :
    ∃ fuel, Ecdsa.nonce N fuel prv.d ((newObj prv secret).run cs).hash = some k := by
  have key : ((newObj prv secret).run cs).prv = some prv ∧ (∀ k, ((newObj prv secret).run cs).k = some k →
      ∃ fuel, Ecdsa.nonce N fuel prv.d ((newObj prv secret).run cs).hash = some k) := by
    clear hk k
    induction cs using List.reverseRecOn with
    | nil => exact ⟨rfl, fun k h => by cases h⟩
    | append_singleton cs c ih =>
      have step : (newObj prv secret).run (cs ++ [c]) = (((newObj prv secret).run cs).step c).1 := run_append _ _ _
      have ih := ih (fun pre d post h => hs pre d (post ++ [c]) (by rw [h]; simp)) (fun h => hc (List.mem_append_left _ h))
      have hc' := hs cs c [] rfl
      rw [step]
      have hcl : c ≠ .close := fun h => hc (by rw [h]; simp)
      clear hs hc step
      generalize (newObj prv secret).run cs = o at ih hc'
      have start : ∀ f p r h, IsStart c → (o.step c).1 = (o.phase2 f p r h).1 →
          ((∃ x, (o.phase2 f p r h).2 = .ok x)) → (o.step c).1.prv = some prv ∧
          (∀ k, (o.step c).1.k = some k → ∃ fuel, Ecdsa.nonce N fuel prv.d (o.step c).1.hash = some k) := by
        intro f p r h _ e hx
        rw [e]
        rcases phase2_cases o prv ih.1 f p r h with ⟨k, x, hn, _, _, e1, e2, e3⟩ | ⟨e1, _⟩
        · refine ⟨e3, fun k' h' => ?_⟩
          rw [e1] at h'
          cases h'
          rw [e2]
          exact ⟨f, hn⟩
        · obtain ⟨x, hx⟩ := hx
          exact (e1 x hx).elim
      cases c
      case phase2 f p r h =>
        obtain ⟨out, ho⟩ := hc' trivial
        obtain ⟨x, hx, _⟩ := Res.bind_eq_ok.mp ho
        exact start f p r h trivial rfl ⟨x, hx⟩
      case bob2 f p r h =>
        obtain ⟨out, ho⟩ := hc' trivial
        refine start f p r h trivial rfl ?_
        unfold Obj.step at ho
        dsimp only at ho
        cases hx : (o.phase2 f p r h).2 with
        | ok x => exact ⟨x, rfl⟩
        | err e => rw [hx] at ho; dsimp only at ho; split at ho <;> cases ho
        | panic => rw [hx] at ho; cases ho
      case close => exact (hcl rfl).elim
      all_goals exact ih
  exact key.2 k hk

/-- the party after a phase 2 that succeeds -/
theorem phase2_state (d1 : ℕ) (h1 : d1 < 2 ^ 256) (secret fuel : ℕ) (hash : Bytes) (w1 : Draw) (g1 : w1.Good) (k1 : ℕ)
    (hk1 : Ecdsa.nonce N fuel d1 hash = some k1) :
    ∃ kinv1 : ℤ, (0 ≤ kinv1 ∧ kinv1 < N) ∧ (kinv1 : ZMod N) * k1 = 1 ∧
      ((newObj (prvOf d1) secret).step (.phase2 fuel (some (w1.p, w1.q)) (some w1.rnd) hash)).1 =
        ⟨some (prvOf d1), some k1, some kinv1, hash, some (Paillier.generateKeyPair w1.p w1.q).2, secret⟩ := by
  obtain ⟨kinv1, hi, k0, kN, ke⟩ := inv_ok (Ecdsa.nonce_range hk1)
  obtain ⟨c1, hc1, _⟩ := encryptKey_ok (d := d1) g1.1 g1.2.2
    (by have := g1.2.1; have b : (2 : ℕ) ^ 256 ≤ 2 ^ 1025 := by decide +kernel
        omega)
  refine ⟨kinv1, ⟨k0, kN⟩, ke, ?_⟩
  change (((newObj (prvOf d1) secret).phase2 fuel (some (w1.p, w1.q)) (some w1.rnd) hash)).1 = _
  unfold Obj.phase2 newObj
  dsimp only
  have hc1' : encryptKey (Paillier.generateKeyPair w1.p w1.q).1 w1.rnd (prvOf d1).d = .ok c1 := hc1
  have hk1' : Ecdsa.nonce N fuel (prvOf d1).d hash = some k1 := hk1
  rw [hc1']
  dsimp only
  rw [hk1']
  dsimp only
  rw [hi]

/-- phase 4 of one nonce for two hashes -/
theorem phase4_two (d1 d2 : ℕ) (h1 : d1 < 2 ^ 256) (h2 : d2 < 2 ^ 256) (hd2 : ¬ N ∣ d2) (secret : ℕ)
    (hash hash' : Bytes) (hz : (hashNum hash : ZMod N) ≠ hashNum hash') (w1 w2 : Draw) (g2 : w2.Good)
    (k1 : ℕ) (kinv1 : ℤ) (kr : 0 ≤ kinv1 ∧ kinv1 < N) (ke : (kinv1 : ZMod N) * k1 = 1) (R : Pt) (hR : R ≠ 0)
    (hx : (((coords R).1 : ℤ) : ZMod N) ≠ 0) (c : ℤ) (hc : encryptKey (Paillier.generateKeyPair w2.p w2.q).1 w2.rnd d2 = .ok c) :
    ∃ ct ct' m m',
      ((⟨some (prvOf d1), some k1, some kinv1, hash, some (Paillier.generateKeyPair w1.p w1.q).2, secret⟩ : Obj).step
        (.phase4 (some c) (Paillier.generateKeyPair w2.p w2.q).1 (scalarOf R))).2 = .ok (.cipher (some ct)) ∧
      ((⟨some (prvOf d1), some k1, some kinv1, hash', some (Paillier.generateKeyPair w1.p w1.q).2, secret⟩ : Obj).step
        (.phase4 (some c) (Paillier.generateKeyPair w2.p w2.q).1 (scalarOf R))).2 = .ok (.cipher (some ct')) ∧
      Paillier.decrypt (Paillier.generateKeyPair w2.p w2.q).2 (some ct) = .ok m ∧
      Paillier.decrypt (Paillier.generateKeyPair w2.p w2.q).2 (some ct') = .ok m' ∧
      ((d2 * (coords R).1 * (m - m') : ℤ) : ZMod N) ≠ 0 ∧
      ((d2 * (coords R).1 * (m - m') * d1 : ℤ) : ZMod N) = ((hashNum hash * m' - hashNum hash' * m : ℤ) : ZMod N) := by
  have run : ∀ hs : Bytes, ∃ ct,
      ((⟨some (prvOf d1), some k1, some kinv1, hs, some (Paillier.generateKeyPair w1.p w1.q).2, secret⟩ : Obj).step
        (.phase4 (some c) (Paillier.generateKeyPair w2.p w2.q).1 (scalarOf R))).2 = .ok (.cipher (some ct)) ∧
      Paillier.decrypt (Paillier.generateKeyPair w2.p w2.q).2 (some ct) = .ok ((d2 * d1 * (coords R).1 + hashNum hs) * kinv1) := by
    intro hs
    obtain ⟨c2, hc2, ec2⟩ := encryptKey_ok (d := d2) g2.1 g2.2.2
      (by have := g2.2.1; have b : (2 : ℕ) ^ 256 ≤ 2 ^ 1025 := by decide +kernel
          omega)
    rw [hc] at hc2
    cases hc2
    obtain ⟨ct, hct, ect⟩ := phase4_ok (prv := prvOf d1) (k := k1) (kinv := kinv1) (hash := hs) (p := w1.p) (q := w1.q) g2.1 ec2 (scalarOf R)
    refine ⟨ct, ?_, ?_⟩
    · change ((ready (prvOf d1) k1 kinv1 hs w1.p w1.q).phase4 (some c) (Paillier.generateKeyPair w2.p w2.q).1 (scalarOf R)).bind
        (fun x => .ok (Out.cipher x)) = _
      rw [hct]
      rfl
    have w12 := no_wrap (n := w2.p * w2.q) g2.2.1 h2 h1 (hashToInt_lt hs) (coords_on hR).1 kr
    rw [Ecdsa.hashToInt_eq] at ect w12
    have hdec := Paillier.decrypt_enc g2.1 ect
    rw [show (scalarOf R).x = (coords R).1 from rfl, show ((prvOf d1).d : ℤ) = (d1 : ℤ) from rfl,
      Int.emod_eq_of_lt w12.1 w12.2] at hdec
    exact hdec
  obtain ⟨ct, hct, hm⟩ := run hash
  obtain ⟨ct', hct', hm'⟩ := run hash'
  refine ⟨ct, ct', _, _, hct, hct', hm, hm', ?_, ?_⟩
  · have e : ((d2 * (coords R).1 * ((d2 * d1 * (coords R).1 + hashNum hash) * kinv1 -
        (d2 * d1 * (coords R).1 + hashNum hash') * kinv1) : ℤ) : ZMod N) =
        d2 * ((coords R).1 : ℤ) * ((hashNum hash - hashNum hash') * kinv1) := by
      push_cast; ring
    rw [e]
    have a1 : ((d2 : ℕ) : ZMod N) ≠ 0 := by rw [Ne, ZMod.natCast_eq_zero_iff]; exact hd2
    have a3 : (kinv1 : ZMod N) ≠ 0 := by intro h; rw [h, zero_mul] at ke; exact zero_ne_one ke
    exact mul_ne_zero (mul_ne_zero a1 hx) (mul_ne_zero (sub_ne_zero.mpr hz) a3)
  · push_cast; ring

/-- **C113**, negation: after a call of phase 2 for a second hash that fails because no primes could be drawn (nil pointers are
returned), the party holds the nonce of the first hash and the second hash, so that phase 4 signs both with one
nonce. A counterpart following the protocol computes the private key from the two decrypted numbers: the factor on
the left is not 0 modulo N and everything but d1 is known to it. -/
theorem C113_failed_phase2 (d1 d2 : ℕ) (h1 : d1 < 2 ^ 256) (h2 : d2 < 2 ^ 256) (hd2 : ¬ N ∣ d2) (secret fuel fuel' : ℕ)
    (hash hash' : Bytes) (hz : (hashNum hash : ZMod N) ≠ hashNum hash') (w1 w2 : Draw) (g1 : w1.Good) (g2 : w2.Good) (rnd' : Option ℕ)
    (k1 : ℕ) (hk1 : Ecdsa.nonce N fuel d1 hash = some k1) (R : Pt) (hR : R ≠ 0) (hx : (((coords R).1 : ℤ) : ZMod N) ≠ 0) (c : ℤ)
    (hc : encryptKey (Paillier.generateKeyPair w2.p w2.q).1 w2.rnd d2 = .ok c) :
    let first := (newObj (prvOf d1) secret).run [.phase2 fuel (some (w1.p, w1.q)) (some w1.rnd) hash]
    let second := (first.step (.phase2 fuel' none rnd' hash')).1
    (first.step (.phase2 fuel' none rnd' hash')).2 = .err errNil ∧
    first.k = some k1 ∧ first.hash = hash ∧ second.k = some k1 ∧ second.hash = hash' ∧
    ∃ ct ct' m m',
      (first.step (.phase4 (some c) (Paillier.generateKeyPair w2.p w2.q).1 (scalarOf R))).2 = .ok (.cipher (some ct)) ∧
      (second.step (.phase4 (some c) (Paillier.generateKeyPair w2.p w2.q).1 (scalarOf R))).2 = .ok (.cipher (some ct')) ∧
      Paillier.decrypt (Paillier.generateKeyPair w2.p w2.q).2 (some ct) = .ok m ∧
      Paillier.decrypt (Paillier.generateKeyPair w2.p w2.q).2 (some ct') = .ok m' ∧
      ((d2 * (coords R).1 * (m - m') : ℤ) : ZMod N) ≠ 0 ∧
      ((d2 * (coords R).1 * (m - m') * d1 : ℤ) : ZMod N) = ((hashNum hash * m' - hashNum hash' * m : ℤ) : ZMod N) := by
  intro first second
  obtain ⟨kinv1, kr, ke, ef'⟩ := phase2_state d1 h1 secret fuel hash w1 g1 k1 hk1
  have ef : first = ⟨some (prvOf d1), some k1, some kinv1, hash, some (Paillier.generateKeyPair w1.p w1.q).2, secret⟩ := ef'
  have es : second = ⟨some (prvOf d1), some k1, some kinv1, hash', some (Paillier.generateKeyPair w1.p w1.q).2, secret⟩ := by
    change (first.step (.phase2 fuel' none rnd' hash')).1 = _
    rw [ef]
    rfl
  obtain ⟨ct, ct', m, m', hct, hct', hrest⟩ := phase4_two d1 d2 h1 h2 hd2 secret hash hash' hz w1 w2 g2 k1 kinv1 kr ke R hR hx c hc
  exact ⟨by rw [ef]; rfl, by rw [ef], by rw [ef], by rw [es], by rw [es], ct, ct', m, m', by rw [ef]; exact hct, by rw [es]; exact hct', hrest⟩

/-! ### Schnorr -/

/-- What a closed Schnorr party answers: it depends on the arguments, its public key and its public point only. -/
def closedSchnorr (pub : Keys.PubKey) (r : Option Scalar) : SCall → Res SOut
  | .phase1 pub2 => (Keys.pubAdd pub pub2).bind fun k => .ok (.key k)
  | .phase2 _ => .panic
  | .phase3 r2 => match r with
    | none => .panic
    | some r => (r.add r2).bind fun s => .ok (.point (some s))
  | .phase4 .. => .panic
  | .phase5 R sigs => ((newSchnorrParty ⟨⟨0, 0⟩, 0⟩).phase5 R sigs).bind fun b => .ok (.sig b)
  | .close => .ok .done

private theorem sshut_results : ∀ (cs : List SCall) {o : SObj}, o.prv = none → o.results cs = cs.map (closedSchnorr o.pub o.r) := by
  intro cs
  induction cs with
  | nil => intro o _; rfl
  | cons c cs ih =>
    intro o h
    obtain ⟨prv, pub, hash, k0, r⟩ := o
    dsimp only at h
    subst h
    have e : ∀ o' : SObj, o'.prv = none → o'.pub = pub → o'.r = r →
        o'.results cs = cs.map (closedSchnorr pub r) := by
      intro o' h1 h2 h3
      rw [ih h1, h2, h3]
    unfold SObj.results
    rw [List.map_cons]
    cases c <;> exact congrArg₂ List.cons rfl (e _ rfl rfl rfl)

/-- The public key never changes. -/
private theorem s_pub (cs : List SCall) : ∀ o : SObj, (o.run cs).pub = o.pub := by
  induction cs with
  | nil => intro o; rfl
  | cons c cs ih =>
    intro o
    have : (o.step c).1.pub = o.pub := by
      cases c
      case phase2 hash =>
        unfold SObj.step SObj.phase2
        dsimp only
        repeat' split
        all_goals rfl
      case phase4 pub R =>
        unfold SObj.step
        dsimp only
        repeat' split
        all_goals rfl
      all_goals rfl
    exact (ih _).trans this

/-- **C113**, Schnorr: likewise. The answers depend on the public key of the party and on the point phase 2 has returned. -/
theorem C113_schnorr_closed (prv : Keys.PrvKey) (before after : List SCall) :
    (((newSObj prv).run before).step .close).2 = .ok .done ∧
    (((newSObj prv).run before).step .close).1.results after =
      after.map (closedSchnorr prv.pub ((newSObj prv).run before).r) := by
  refine ⟨rfl, ?_⟩
  rw [sshut_results after rfl]
  change after.map (closedSchnorr ((newSObj prv).run before).pub ((newSObj prv).run before).r) = _
  rw [s_pub]
  rfl

end

/-! ### Concrete cases, with the real hash functions -/

private theorem nonce_there : ∃ k, @Ecdsa.nonce Sha.realHashes N 4 12345 [7] = some k := by
  have h : (@Ecdsa.nonce Sha.realHashes N 4 12345 [7]).isSome = true := by decide +kernel
  exact Option.isSome_iff_exists.mp h

/-- A party that has gone through phase 2 and is closed: phase 1 panics, phase 3 returns the point at infinity, phase 5 refuses
a missing ciphertext and panics on another. -/
example : ∃ w : Draw, (@Obj.results Sha.realHashes
    (@Obj.step Sha.realHashes (@Obj.run Sha.realHashes (newObj (prvOf 12345) 77) [.phase2 4 (some (w.p, w.q)) (some w.rnd) [7]]) .close).1
    [.phase1 (keyOf G), .phase3 (scalarOf G), .phase5 (scalarOf G) none, .phase5 (scalarOf G) (some 5)]) =
    [.panic, .ok (.point ⟨0, 0⟩), .err Paillier.errCiphertext, .panic] := by
  letI := Sha.realHashes
  obtain ⟨w, g⟩ := exists_draw
  obtain ⟨k, hk⟩ := nonce_there
  refine ⟨w, ?_⟩
  have hs : ((newObj (prvOf 12345) 77).run [.phase2 4 (some (w.p, w.q)) (some w.rnd) [7]]).k.isSome = true := by
    rcases start_iff (newObj (prvOf 12345) 77) (.phase2 4 (some (w.p, w.q)) (some w.rnd) [7]) trivial with h | h
    · exact h.2
    · exfalso
      obtain ⟨c1, hc1, _⟩ := encryptKey_ok (d := 12345) g.1 g.2.2
        (by have := g.2.1; have b : (12345 : ℕ) < 2 ^ 1025 := by decide +kernel
            omega)
      refine h.1 (.start c1 (Paillier.generateKeyPair w.p w.q).1 (scalarOf (k • G))) ?_
      unfold Obj.step Obj.phase2 newObj
      dsimp only
      have hc1' : encryptKey (Paillier.generateKeyPair w.p w.q).1 w.rnd (prvOf 12345).d = .ok c1 := hc1
      have hk1' : Ecdsa.nonce N 4 (prvOf 12345).d [7] = some k := hk
      rw [hc1']
      dsimp only
      rw [hk1']
      dsimp only
      rw [baseMult_coords, natOfBE_natToBE]
      rfl
  have h := (C113_closed (prvOf 12345) 77 [.phase2 4 (some (w.p, w.q)) (some w.rnd) [7]]
    [.phase1 (keyOf G), .phase3 (scalarOf G), .phase5 (scalarOf G) none, .phase5 (scalarOf G) (some 5)]).2
  rw [hs] at h
  rw [h]
  rfl

/-- The hypotheses of the attack can be met: hashes 0x07 and 0x08, shared point G. -/
example : ∃ (w : Draw) (c ct ct' : ℤ) (first second : Obj),
    (@Obj.step Sha.realHashes first (.phase4 (some c) (Paillier.generateKeyPair w.p w.q).1 (scalarOf G))).2 = .ok (.cipher (some ct)) ∧
    (@Obj.step Sha.realHashes second (.phase4 (some c) (Paillier.generateKeyPair w.p w.q).1 (scalarOf G))).2 = .ok (.cipher (some ct')) ∧
    second.k = first.k ∧ first.hash = [7] ∧ second.hash = [8] := by
  letI := Sha.realHashes
  obtain ⟨w, g⟩ := exists_draw
  obtain ⟨k, hk⟩ := nonce_there
  obtain ⟨c, hc, _⟩ := encryptKey_ok (d := 3) g.1 g.2.2
    (by have := g.2.1; have b : (3 : ℕ) < 2 ^ 1025 := by decide +kernel
        omega)
  have hz : (hashNum [7] : ZMod N) ≠ hashNum [8] := by
    rw [Ne, ZMod.natCast_eq_natCast_iff]
    decide +kernel
  have hx : (((coords G).1 : ℤ) : ZMod N) ≠ 0 := by
    have : (coords G).1 = Gx := by rw [coords_G]
    rw [this, Ne, ZMod.intCast_zmod_eq_zero_iff_dvd]
    decide +kernel
  obtain ⟨_, f1, f2, h1, h2, ct, ct', _, _, h3, h4, _⟩ := C113_failed_phase2 12345 3 (by norm_num) (by norm_num) (by decide +kernel) 0 4 4 [7] [8] hz w w g g none
    k hk G G_ne hx c hc
  exact ⟨w, c, ct, ct', _, _, h3, h4, h1.trans f1.symm, f2, h2⟩

end Toku.Props
