import Verif.Props.HDKey
/-
Property C122: what the private key of a child says about the key it was derived from.
-/
namespace Toku.Props
open Toku Toku.Spec Toku.Curve Toku.Keys Toku.HDKey

section
variable [Hashes]

/-! ### What the holder of public data does -/

/-- The sum of the left halves along a list of indices, computed from an extended public key. -/
def shiftOf (w : HDKey) : List UInt32 → Res ℕ
  | [] => .ok 0
  | i :: is => do
    let I ← getIntermediary w i
    let w' ← derive w i
    let rest ← shiftOf w' is
    return beNat (I.take 32) + rest

/-- The attacker: from an extended public key `w`, a list of indices and the number `c` (the private key of the
descendant of `w` on that list) an extended private key. -/
def climb (w : HDKey) (is : List UInt32) (c : ℕ) : Res HDKey := do
  let s ← shiftOf w is
  let d := (c + (N - s % N)) % N
  return { w with key := .prv ⟨keyOf (d • G), d⟩ }

theorem shift_path (is : List UInt32) (hi : ∀ i ∈ is, i.toNat < 2 ^ 31) : ∀ (k : HDKey) (p : PrvKey), WF k → k.key = .prv p →
    ∀ c, deriveAll (hdPublicKey k) is = .ok c → ∃ s k' p', shiftOf (hdPublicKey k) is = .ok s ∧ deriveAll k is = .ok k' ∧
      k'.key = .prv p' ∧ p'.d ≡ p.d + s [MOD N] := by
  induction is with
  | nil => exact fun k p _ hk _ _ => ⟨0, k, p, rfl, rfl, hk, rfl⟩
  | cons i is ih =>
    intro k p h hk c hc
    unfold deriveAll at hc
    rw [Res.bind_eq_ok] at hc
    obtain ⟨m, hm, hc⟩ := hc
    have hlt := hi i List.mem_cons_self
    obtain ⟨k1, h1, rfl⟩ := C49_agree_success k h ⟨p, hk⟩ i hlt m hm
    obtain ⟨I, pb, g1, _, _, g2⟩ := derive_private h hk i
    obtain ⟨J, e1, e2, _⟩ := intermediary_public h (UInt32.lt_iff_toNat_lt.mpr hlt)
    rw [g1] at e1
    cases Res.ok.inj e1
    rw [h1] at g2
    have g2 := Res.ok.inj g2
    obtain ⟨hw, _⟩ := derive_wf h h1
    obtain ⟨s, k', p', a1, a2, a3, a4⟩ := ih (fun j hj => hi j (List.mem_cons_of_mem _ hj)) k1 _ hw
      (congrArg HDKey.key g2) c hc
    refine ⟨beNat (I.take 32) + s, k', p', ?_, ?_, a3, ?_⟩
    · unfold shiftOf
      rw [e2, Res.ok_bind, hm, Res.ok_bind, a1]
      rfl
    · unfold deriveAll
      rw [h1, Res.ok_bind, a2]
    · refine a4.trans ?_
      rw [← Nat.add_assoc]
      exact (Nat.mod_modEq _ _).add_right _

/-- **C122**, negation. The extended public key of an account together with the private key of any one descendant on a
list of non-hardened indices is the extended private key of the account: `climb`, which is given only these, returns
it, with its chain code, depth, fingerprint and child number. (A private key below N is every key but a master key or
parsed key of N or more.) -/
theorem C122_negation (k : HDKey) (p : PrvKey) (h : WF k) (hk : k.key = .prv p) (hn : p.d < N) (is : List UInt32)
    (hi : ∀ i ∈ is, i.toNat < 2 ^ 31) (c : HDKey) (hc : deriveAll (hdPublicKey k) is = .ok c) :
    ∃ k' p', deriveAll k is = .ok k' ∧ k'.key = .prv p' ∧ climb (hdPublicKey k) is p'.d = .ok k := by
  obtain ⟨s, k', p', h1, h2, h3, h4⟩ := shift_path is hi k p h hk c hc
  refine ⟨k', p', h2, h3, ?_⟩
  unfold climb
  rw [h1, Res.ok_bind]
  have hp := h.key
  rw [hk] at hp
  have hN : 0 < N := by decide +kernel
  have hd : (p'.d + (N - s % N)) % N = p.d := by
    have e1 : p'.d + (N - s % N) ≡ p.d + s + (N - s % N) [MOD N] := h4.add_right _
    have e2 : p.d + s + (N - s % N) ≡ p.d + s % N + (N - s % N) [MOD N] :=
      ((Nat.mod_modEq s N).symm.add_left _).add_right _
    have e3 : p.d + s % N + (N - s % N) = p.d + N := by have := Nat.mod_lt s hN; omega
    have e4 : p.d + N ≡ p.d [MOD N] := by simp [Nat.ModEq]
    have := (e1.trans e2).trans (e3 ▸ e4)
    rw [this, Nat.mod_eq_of_lt hn]
  show Res.ok _ = _
  rw [hd]
  obtain ⟨a, b, cc, d, key⟩ := k
  dsimp only at hk
  subst hk
  obtain ⟨pub, dd⟩ := p
  dsimp only at hp
  rw [← hp.2]
  rfl

/-- **C122**, negation: and so every other key of the account is known too, the hardened ones among them, which the
extended public key alone does not give (`C49_hardened`). -/
theorem C122_negation_family (k : HDKey) (p : PrvKey) (h : WF k) (hk : k.key = .prv p) (hn : p.d < N) (is : List UInt32)
    (hi : ∀ i ∈ is, i.toNat < 2 ^ 31) (c : HDKey) (hc : deriveAll (hdPublicKey k) is = .ok c) :
    ∃ k' p', deriveAll k is = .ok k' ∧ k'.key = .prv p' ∧
      ∀ js, (climb (hdPublicKey k) is p'.d >>= fun a => deriveAll a js) = deriveAll k js := by
  obtain ⟨k', p', h1, h2, h3⟩ := C122_negation k p h hk hn is hi c hc
  exact ⟨k', p', h1, h2, fun js => by rw [h3, Res.ok_bind]⟩

/-- **C122**, negation: for one step no condition on the public derivation is needed: the left half of the child's
intermediary is computed from the extended public key, and the difference of the private keys is that number. -/
theorem C122_negation_step (k : HDKey) (p : PrvKey) (h : WF k) (hk : k.key = .prv p) (i : UInt32) (hi : i.toNat < 2 ^ 31) :
    ∃ I k' p', getIntermediary (hdPublicKey k) i = .ok I ∧ derive k i = .ok k' ∧ k'.key = .prv p' ∧
      p'.d ≡ p.d + beNat (I.take 32) [MOD N] := by
  obtain ⟨I, pb, g1, _, _, g2⟩ := derive_private h hk i
  obtain ⟨J, e1, e2, _⟩ := intermediary_public h (UInt32.lt_iff_toNat_lt.mpr hi)
  rw [g1] at e1
  cases Res.ok.inj e1
  exact ⟨_, _, _, e2, g2, rfl, Nat.mod_modEq _ _⟩

/-- **C122 (partial).** Full statement: the private key of a child does not give away the key it was derived from.
Proved, for lists with a hardened index, only that the computation above returns no key whatever number is given to it: the
intermediary of that index cannot be had from an extended public key. That no other computation does better is a claim on
HMAC-SHA512, which is not made here. -/
theorem C122_hardened_partial (w : HDKey) (hw : ¬ IsPrv w) (is js : List UInt32) (i : UInt32) (hi : 2 ^ 31 ≤ i.toNat) (c : ℕ) :
    ∀ a, climb w (is ++ i :: js) c ≠ .ok a := by
  have key : ∀ (is : List UInt32) (w : HDKey), ¬ IsPrv w → ∀ s, shiftOf w (is ++ i :: js) ≠ .ok s := by
    intro is
    induction is with
    | nil =>
      intro w hw s hs
      simp only [List.nil_append] at hs
      unfold shiftOf at hs
      rw [Res.bind_eq_ok] at hs
      obtain ⟨I, hI, _⟩ := hs
      unfold getIntermediary hashedKey at hI
      rw [if_pos (UInt32.le_iff_toNat_le.mpr hi : i ≥ hardenedKeyStart)] at hI
      cases e : w.key with
      | prv p => exact hw ⟨p, e⟩
      | pub p => rw [e] at hI; cases hI
    | cons j is ih =>
      intro w hw s hs
      rw [List.cons_append] at hs
      unfold shiftOf at hs
      rw [Res.bind_eq_ok] at hs
      obtain ⟨I, _, hs⟩ := hs
      rw [Res.bind_eq_ok] at hs
      obtain ⟨w', hd, hs⟩ := hs
      rw [Res.bind_eq_ok] at hs
      obtain ⟨s', hs', _⟩ := hs
      refine ih w' ?_ s' hs'
      rintro ⟨p', hp'⟩
      unfold derive at hd
      cases e : w.key with
      | prv p => exact hw ⟨p, e⟩
      | pub p =>
        rw [e] at hd
        dsimp only at hd
        split_ifs at hd
        simp only [Res.bind_eq_ok] at hd
        obtain ⟨_, _, _, _, _, _, _, _, _, _, _, _, hd⟩ := hd
        cases Res.ok.inj hd
        cases hp'
  intro a ha
  unfold climb at ha
  rw [Res.bind_eq_ok] at ha
  obtain ⟨s, hs, _⟩ := ha
  exact key is w hw s hs

end

/-- A key below N, and a list of two indices on which the extended public key has a descendant. -/
example : ∃ k p, @HDKey.new modHashes [1, 2, 3] = .ok k ∧ k.key = .prv p ∧ p.d < N ∧
    ∃ c, @deriveAll modHashes (hdPublicKey k) [0, 5] = .ok c := by
  have : (@HDKey.new modHashes [1, 2, 3] >>= fun k => .ok (match k.key with
      | .prv p => decide (p.d < N) && (match @deriveAll modHashes (hdPublicKey k) [0, 5] with
        | .ok _ => true
        | _ => false)
      | _ => false)) = .ok true := by decide +kernel
  rw [Res.bind_eq_ok] at this
  obtain ⟨k, hk, h⟩ := this
  have h := Res.ok.inj h
  cases e : k.key with
  | pub p => rw [e] at h; cases h
  | prv p =>
    rw [e] at h
    dsimp only at h
    rw [Bool.and_eq_true, decide_eq_true_eq] at h
    refine ⟨k, p, hk, e, h.1, ?_⟩
    have h2 := h.2
    split at h2
    · rename_i c hc; exact ⟨c, hc⟩
    · cases h2

/-- An extended public key, and a hardened index. -/
example : ¬ IsPrv ⟨[0, 0, 0, 0], [0, 0, 0, 0], List.replicate 32 0, 0, .pub (keyOf (1 • G))⟩ ∧ 2 ^ 31 ≤ (0x8000002c : UInt32).toNat :=
  ⟨(fun ⟨_, h⟩ => nomatch h), by decide⟩

end Toku.Props
