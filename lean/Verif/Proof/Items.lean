import Verif.Proof.Policies
/-
How many items the witness of a P2WSH coin with an m-of-n script has under the rules of Bitcoin.
-/
namespace Toku.Props
open Toku Toku.Spec Toku.Script Toku.Locking Toku.Tx Toku.VM
open Toku.Spec.Bitcoin (In BTx ValidInput)

private theorem numIn_consensus {x : Bytes} {n k : ℕ} (h1 : ScriptNum.make x 4 = .ok (n : Int)) (h2 : Bitcoin.NumIn Bitcoin.consensus x (k : Int)) :
    n = k := by
  have := ((VM.make_iff _ _).mp h1).2.2
  have := h2.2.2
  omega

/-- An m-of-n script of a P2WSH coin leaves a single element only if the witness has one item and `m` signatures before it. -/
private theorem policy_items {m : ℕ} {keys : List Bytes} (h : PolicySizes m keys) {hash : Bytes → Bytes} {check : Bytes → Bytes → Option Bool}
    {rts : List Token} (hv : ∀ t ∈ rts, t.Valid) (he : encTokens rts = policyScript m keys) {items : List Bytes} {y : Bytes}
    (hev : Bitcoin.EvalScript Bitcoin.consensus hash check rts items.reverse [y]) : items.length = m + 1 := by
  obtain ⟨tm, ks, tn, hse, hp, v1, v2, hkeys, hv', hr1, hr2⟩ := policy_tokens h
  have : rts = tm :: ks ++ [tn, ⟨0xae, []⟩] := tokens_unique hv hv' (by rw [he]; omega) (by rw [he, hse])
  subst this
  obtain ⟨_, n, hev⟩ := hev
  have hsplit : tm :: ks ++ [tn, ⟨0xae, []⟩] = (tm :: ks ++ [tn]) ++ [⟨0xae, []⟩] := by simp
  rw [hsplit] at hev
  obtain ⟨⟨s1, e1, n1⟩, hev1, hev2⟩ := eval_split hev
  have := eval_pushes_inv _ _ _ _ hp hev1
  cases this
  obtain ⟨s', k, o, _, hev3⟩ := eval_op (show ¬ Bitcoin.isCond 0xae by decide) hev2
  have e := congrArg Bitcoin.State.stack (eval_nil hev3)
  dsimp only at e
  obtain ⟨x, K, z, S, d, r, b, hs, n1, n2, _, _, hd, hm, hs', _⟩ := op_multi o rfl
  have hst : ((tm :: ks ++ [tn]).map pushValue).reverse ++ items.reverse =
      pushValue tn :: (keys.reverse ++ pushValue tm :: items.reverse) := by
    simp [← hkeys]
  rw [hst] at hs
  obtain ⟨rfl, hs1⟩ := List.cons.inj hs
  have hK : keys.length = K.length := numIn_consensus v2 n1
  obtain ⟨rfl, hs2⟩ := List.append_inj hs1 ((List.length_reverse ..).trans hK)
  obtain ⟨rfl, hs3⟩ := List.cons.inj hs2
  have hS : m = S.length := numIn_consensus v1 n2
  rw [hs'] at e
  have hr : r = [] := ((List.cons.inj e).2).symm
  have := congrArg List.length hs3
  simp only [List.length_reverse, List.length_append, List.length_cons, hr, List.length_nil] at this
  omega

/-- A P2WSH coin of an m-of-n script: the witness has `m + 2` items. -/
theorem p2wsh_items [Hashes] {m : ℕ} {keys : List Bytes} (h : PolicySizes m keys) {tx : BTx} {idx : ℕ} {i : In} {v : UInt64} {p : Bytes}
    (hp : p.length = 32) (hi : tx.ins[idx]? = some i) (hw : i.witness.getLast? = some (policyScript m keys))
    (hval : ValidInput tx idx ⟨v, standardScript .p2wsh p⟩) : i.witness.length = m + 2 := by
  obtain ⟨j, hj, hval⟩ := hval
  rw [hi] at hj
  cases hj
  rcases hval with ⟨hn, _⟩ | ⟨q, hq, e, _⟩ | ⟨q, code, hq, e, hss, hlast, items, rts, x, hrv, hw', hsha, _, hev, hx⟩
  · exact absurd ⟨[0], p, by simp [standardScript, hp], by omega, by omega, Or.inl rfl⟩ hn
  · have := congrArg List.length e
    simp [standardScript, hp, hq] at this
  · rw [hw', List.getLast?_concat] at hw
    have := policy_items h hrv (Option.some.inj hw) hev
    rw [hw', List.length_append, this]
    rfl

end Toku.Props
