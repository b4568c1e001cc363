import Verif.Proof.HDKey
import Verif.Props.Base58
import Verif.Props.SigHash
/-
Properties C49 to C51 and C87: extended keys, their derivation and their text.
-/
namespace Toku.Props
open Toku Toku.Spec Toku.Curve Toku.Keys Toku.HDKey

section
variable [Hashes]

/-! ### Which keys there are -/

/-- Every extended key made by the package is one of the keys quantified over below (`WF`): a master key, the public
part, a child, a parsed one. -/
theorem C49_keys :
    (∀ seed, ∃ k, HDKey.new seed = .ok k ∧ WF k) ∧ (∀ k, WF k → WF (hdPublicKey k)) ∧
    (∀ k k' i, WF k → derive k i = .ok k' → WF k') ∧ (∀ s k, fromString s = .ok k → WF k) := by
  refine ⟨fun seed => ?_, fun k h => hdPublicKey_wf h, fun k k' i h hd => (derive_wf h hd).1, ?_⟩
  · obtain ⟨k, h1, h2, _⟩ := new_wf seed
    exact ⟨k, h1, h2⟩
  · intro s k h
    unfold fromString at h
    dsimp only at h
    split at h
    · cases h
    rename_i hl
    rw [not_not] at hl
    rw [Res.bind_eq_ok] at h
    obtain ⟨key, hkey, h⟩ := h
    split at h
    · cases h
    have h := Res.ok.inj h
    subst h
    refine ⟨?_, ?_, ?_, ?_⟩
    · show (((Base58.decode s).drop 9).take 4).length = 4
      rw [List.length_take, List.length_drop, hl]; rfl
    · show (((Base58.decode s).drop 5).take 4).length = 4
      rw [List.length_take, List.length_drop, hl]; rfl
    · show (((Base58.decode s).drop 13).take 32).length = 32
      rw [List.length_take, List.length_drop, hl]; rfl
    · dsimp only
      have hl33 : (((Base58.decode s).drop 45).take 33).length = 33 := by
        rw [List.length_take, List.length_drop, hl]; rfl
      rcases parseKey_wf hl33 hkey with ⟨d, rfl, hd, _⟩ | ⟨q, rfl, _⟩
      · exact ⟨hd, rfl⟩
      · exact ⟨q, rfl⟩

/-! ### C49 -/

/-- **C49 (partial).** Full statement: the second alternative never happens. Proved: private derivation succeeds, and
deriving the public part gives the public part of the private child, in every field, unless the left half of the hash is
a multiple of the group order, when public derivation is an error. -/
theorem C49_agree_partial (k : HDKey) (h : WF k) (hp : IsPrv k) (i : UInt32) (hi : i.toNat < 2 ^ 31) :
    ∃ k', derive k i = .ok k' ∧ (derive (hdPublicKey k) i = .ok (hdPublicKey k') ∨
      ∃ I e, getIntermediary k i = .ok I ∧ N ∣ beNat (I.take 32) ∧ derive (hdPublicKey k) i = .err e) := by
  obtain ⟨p, hp⟩ := hp
  have hi : i < hardenedKeyStart := UInt32.lt_iff_toNat_lt.mpr hi
  have hk := h.key
  rw [hp] at hk
  obtain ⟨I, pb, h1, _, h2, h3⟩ := derive_private h hp i
  have hpk : publicKey k = keyOf (p.d • G) := by unfold publicKey; rw [hp]; exact hk.2
  have hq : (hdPublicKey k).key = .pub (keyOf (p.d • G)) := by
    show Material.pub (publicKey k) = _
    rw [hpk]
  obtain ⟨J, qb, g1, _, g2, g3, g4⟩ := derive_public (hdPublicKey_wf h) hq hi
  obtain ⟨I', e1, e2, _⟩ := intermediary_public h hi
  rw [h1] at e1
  rw [g1] at e2
  cases Res.ok.inj e1
  cases Res.ok.inj e2
  rw [hpk, g2] at h2
  cases Res.ok.inj h2
  refine ⟨_, h3, ?_⟩
  by_cases hn : N ∣ natOfBE (I.take 32)
  · obtain ⟨e, he⟩ := g4 hn
    exact Or.inr ⟨_, e, h1, hn, he⟩
  · left
    rw [g3 hn, add_smul]
    rfl

/-- **C49.** Whenever public derivation succeeds it agrees with private derivation. -/
theorem C49_agree_success (k : HDKey) (h : WF k) (hp : IsPrv k) (i : UInt32) (hi : i.toNat < 2 ^ 31) (c : HDKey)
    (hc : derive (hdPublicKey k) i = .ok c) : ∃ k', derive k i = .ok k' ∧ c = hdPublicKey k' := by
  obtain ⟨k', h1, h2 | ⟨_, _, _, _, h2⟩⟩ := C49_agree_partial k h hp i hi
  · rw [hc] at h2
    exact ⟨k', h1, Res.ok.inj h2⟩
  · rw [hc] at h2; cases h2

/-- Derivation along a list of indices. -/
def deriveAll (k : HDKey) : List UInt32 → Res HDKey
  | [] => .ok k
  | i :: is => derive k i >>= fun k => deriveAll k is

/-- Private derivation along any list of indices succeeds. -/
theorem C49_private_total (is : List UInt32) : ∀ k, WF k → IsPrv k → ∃ k', deriveAll k is = .ok k' ∧ WF k' ∧ IsPrv k' := by
  induction is with
  | nil => exact fun k h hp => ⟨k, rfl, h, hp⟩
  | cons i is ih =>
    intro k h hp
    obtain ⟨p, e⟩ := hp
    obtain ⟨I, pb, _, _, _, h1⟩ := derive_private h e i
    obtain ⟨hw, hpp⟩ := derive_wf h h1
    obtain ⟨k', h2, h3⟩ := ih _ hw (hpp.mp ⟨p, e⟩)
    refine ⟨k', ?_, h3⟩
    unfold deriveAll
    rw [h1, Res.ok_bind, h2]

/-- **C49**, for paths: whenever public derivation along a list of non-hardened indices succeeds it agrees with private
derivation. -/
theorem C49_agree_path (is : List UInt32) (hi : ∀ i ∈ is, i.toNat < 2 ^ 31) : ∀ k, WF k → IsPrv k → ∀ c,
    deriveAll (hdPublicKey k) is = .ok c → ∃ k', deriveAll k is = .ok k' ∧ c = hdPublicKey k' := by
  induction is with
  | nil =>
    intro k _ _ c hc
    exact ⟨k, rfl, (Res.ok.inj hc).symm⟩
  | cons i is ih =>
    intro k h hp c hc
    unfold deriveAll at hc
    rw [Res.bind_eq_ok] at hc
    obtain ⟨m, hm, hc⟩ := hc
    obtain ⟨k1, h1, rfl⟩ := C49_agree_success k h hp i (hi i List.mem_cons_self) m hm
    obtain ⟨hw, hpp⟩ := derive_wf h h1
    obtain ⟨k', h2, h3⟩ := ih (fun j hj => hi j (List.mem_cons_of_mem _ hj)) k1 hw (hpp.mp hp) c hc
    refine ⟨k', ?_, h3⟩
    unfold deriveAll
    rw [h1, Res.ok_bind, h2]

/-- **C49.** A hardened child of a public key is an error. -/
theorem C49_hardened (k : HDKey) (hp : ¬ IsPrv k) (i : UInt32) (hi : 2 ^ 31 ≤ i.toNat) :
    derive k i = .err errHardened := by
  have hi : i ≥ hardenedKeyStart := UInt32.le_iff_toNat_le.mpr hi
  unfold derive
  cases e : k.key with
  | prv p => exact absurd ⟨p, e⟩ hp
  | pub p =>
    dsimp only
    rw [if_pos hi]

end

/-- Hash functions that return zero bytes. -/
@[reducible] def zeroHashes : Hashes where
  sha256 _ := List.replicate 32 0
  sha512 _ := List.replicate 64 0
  sha256_length _ := rfl
  sha512_length _ := rfl

/-- **C49**, negation: with hash functions that return zeros the private child of a key exists and the public one is
an error. (No input of SHA-512 doing this is known.) -/
theorem C49_negation : ∃ (_ : Hashes) (k : HDKey) (i : UInt32), WF k ∧ IsPrv k ∧ i.toNat < 2 ^ 31 ∧
    (∃ k', derive k i = .ok k') ∧ ∃ e, derive (hdPublicKey k) i = .err e := by
  have hk : prvFromBytes [1] = .ok ⟨keyOf (natOfBE [1] • G), natOfBE [1]⟩ := C61_prvFromBytes _
  have hw : WF ⟨List.replicate 4 0, List.replicate 4 0, List.replicate 32 0, 0, .prv ⟨keyOf (natOfBE [1] • G), natOfBE [1]⟩⟩ :=
    ⟨rfl, rfl, rfl, by decide +kernel, rfl⟩
  refine ⟨zeroHashes, _, 0, hw, ⟨_, rfl⟩, by decide, ?_⟩
  obtain ⟨k', h1, h2 | ⟨I, e, _, _, h2⟩⟩ := @C49_agree_partial zeroHashes _ hw ⟨_, rfl⟩ 0 (by decide)
  · exfalso
    have hq : (hdPublicKey ⟨List.replicate 4 0, List.replicate 4 0, List.replicate 32 0, 0,
      .prv ⟨keyOf (natOfBE [1] • G), natOfBE [1]⟩⟩).key = .pub (keyOf (natOfBE [1] • G)) := rfl
    obtain ⟨J, qb, g1, _, g2, g3, g4⟩ := @derive_public zeroHashes _ _ (hdPublicKey_wf hw) hq 0 (by decide)
    have hJ : J = List.replicate 64 0 := by
      unfold getIntermediary at g1
      rw [Res.bind_eq_ok] at g1
      obtain ⟨_, _, g1⟩ := g1
      exact (Res.ok.inj g1).symm
    obtain ⟨e, he⟩ := g4 (by rw [hJ]; exact ⟨0, by decide +kernel⟩)
    rw [he] at h2
    cases h2
  · exact ⟨⟨k', h1⟩, e, h2⟩

/-- The hypotheses of C49 hold for a master key, and the two derivations of child 5 agree. -/
example : ∃ k, @HDKey.new modHashes [1, 2, 3] = .ok k ∧
    (@derive modHashes k 5 >>= fun c => .ok (hdPublicKey c)) = @derive modHashes (hdPublicKey k) 5 ∧
    (@derive modHashes k 5 >>= fun c => .ok c.depth) = .ok 1 := by
  have h := @new_ok modHashes [1, 2, 3]
  refine ⟨_, h, ?_⟩
  have e : ∀ k, @HDKey.new modHashes [1, 2, 3] = .ok k →
    (@derive modHashes k 5 >>= fun c => .ok (hdPublicKey c)) = @derive modHashes (hdPublicKey k) 5 ∧
    (@derive modHashes k 5 >>= fun c => .ok c.depth) = .ok 1 := by
    have : (@HDKey.new modHashes [1, 2, 3] >>= fun k => .ok
      (decide ((@derive modHashes k 5 >>= fun c => .ok (hdPublicKey c)) = @derive modHashes (hdPublicKey k) 5 ∧
        (@derive modHashes k 5 >>= fun c => .ok c.depth) = .ok 1))) = .ok true := by decide +kernel
    intro k hk
    rw [hk, Res.ok_bind] at this
    exact of_decide_eq_true (Res.ok.inj this)
  exact e _ h

/-! ### C50 -/

section
variable [Hashes]

/-- The version prefix of a key. -/
def version (prvID pubID : Bytes) (k : HDKey) : Bytes := match k.key with | .prv _ => prvID | .pub _ => pubID

/-- **C50.** The text is the Base58 form of version, depth, fingerprint, child number, chain code, key and checksum; the
key is a zero byte and the number, or the compressed point. -/
theorem C50_text (prvID pubID : Bytes) (k : HDKey) (h : WF k) : ∃ key, key.length = 33 ∧
    (∀ p, k.key = .prv p → key = 0 :: be 32 p.d) ∧ (∀ q, k.key = .pub (keyOf q) → q ≠ 0 → Compressed q key) ∧
    let v := version prvID pubID k
    HDKey.toString prvID pubID k = .ok (Base58.encode (extBytes v k.depth k.parentFP k.childNum k.chainCode key
      ((sha256d (v ++ [k.depth] ++ k.parentFP ++ k.childNum ++ k.chainCode ++ key)).take 4))) := by
  obtain ⟨b, h1, h2, h3, h4⟩ := keyBytes_ok h
  refine ⟨b, h2, h3, h4, ?_⟩
  unfold HDKey.toString
  rw [h1]
  rfl

/-- **C50 (partial).** Full statement: for every key. Proved: for every key whose public key is not the point at
infinity, parsing the text gives back the key. The version prefixes may be any four bytes. -/
theorem C50_round_trip_partial (prvID pubID : Bytes) (hprv : prvID.length = 4) (hpub : pubID.length = 4) (k : HDKey) (h : WF k)
    (hf : ∀ q, k.key = .pub (keyOf q) → q ≠ 0) :
    ∃ s, HDKey.toString prvID pubID k = .ok s ∧ fromString s = .ok k := by
  obtain ⟨key, hl, hp, hq, ht⟩ := C50_text prvID pubID k h
  refine ⟨_, ht, ?_⟩
  have hv : (version prvID pubID k).length = 4 := by
    unfold version
    split <;> assumption
  have hs : ((sha256d (version prvID pubID k ++ [k.depth] ++ k.parentFP ++ k.childNum ++ k.chainCode ++ key)).take 4).length = 4 := by
    rw [List.length_take, sha256d_length]; rfl
  obtain ⟨f1, f2, f3, f4, f5, f6, f7, f8⟩ := ext_fields k.depth hv h.fp h.num h.chain hl hs
  have hk : parseKey key = .ok k.key := by
    have hw := h.key
    cases e : k.key with
    | prv p =>
      rw [e] at hw
      rw [hp p e, parseKey_prv _ hw.1, ← hw.2]
    | pub p =>
      rw [e] at hw
      obtain ⟨q, rfl⟩ := hw
      exact parseKey_pub q (hf q e) key (hq q e (hf q e))
  unfold fromString
  rw [Base58.decode_encode]
  dsimp only
  rw [if_neg (by rw [f1]; simp), f2, f3, f4, f5, f6, f7, f8, hk, Res.ok_bind, if_neg (by simp)]

/-- The key whose public part is the point at infinity: private key zero. -/
def zeroKey : HDKey := ⟨[0, 0, 0, 0], [0, 0, 0, 0], List.replicate 32 0, 0, .prv ⟨keyOf (0 • G), 0⟩⟩

/-- **C50**, negation: the private key zero is a key, its public part has a text, and the text is refused. -/
theorem C50_negation (prvID pubID : Bytes) (hpub : pubID.length = 4) :
    WF (hdPublicKey zeroKey) ∧ ∃ s e, HDKey.toString prvID pubID (hdPublicKey zeroKey) = .ok s ∧ fromString s = .err e := by
  have hw : WF (hdPublicKey zeroKey) := hdPublicKey_wf ⟨rfl, rfl, rfl, by decide +kernel, rfl⟩
  refine ⟨hw, ?_⟩
  have hk : (hdPublicKey zeroKey).key = .pub ⟨0, 0⟩ := by
    show Material.pub (keyOf ((0 : ℕ) • G)) = _
    rw [show ((0 : ℕ) • G) = 0 from zero_smul ℕ G]
    rfl
  have hb : keyBytes (hdPublicKey zeroKey) = .ok (2 :: List.replicate 32 0) := by
    unfold keyBytes
    rw [hk]
    decide +kernel
  have hp : parseKey (2 :: List.replicate 32 0) = .err errPubCurve := by decide +kernel
  have hs : ((sha256d (pubID ++ [0] ++ [0, 0, 0, 0] ++ [0, 0, 0, 0] ++ List.replicate 32 0 ++ (2 :: List.replicate 32 0))).take 4).length = 4 := by
    rw [List.length_take, sha256d_length]; rfl
  obtain ⟨f1, f2, f3, f4, f5, f6, f7, f8⟩ := ext_fields (v := pubID) (fp := [0, 0, 0, 0]) (num := [0, 0, 0, 0])
    (chain := List.replicate 32 0) (key := 2 :: List.replicate 32 0) 0 hpub rfl rfl rfl rfl hs
  refine ⟨Base58.encode (extBytes pubID 0 [0, 0, 0, 0] [0, 0, 0, 0] (List.replicate 32 0) (2 :: List.replicate 32 0)
    ((sha256d (pubID ++ [0] ++ [0, 0, 0, 0] ++ [0, 0, 0, 0] ++ List.replicate 32 0 ++ (2 :: List.replicate 32 0))).take 4)), errPubCurve, ?_, ?_⟩
  · unfold HDKey.toString
    rw [hb, hk]
    rfl
  · unfold fromString
    rw [Base58.decode_encode]
    dsimp only
    rw [if_neg (by rw [f1]; simp), f6, hp]
    rfl

/-- **C50.** A string whose bytes are not 82 is refused. -/
theorem C50_reject_length (s : Bytes) (h : (Base58.decode s).length ≠ 82) : fromString s = .err errSize := by
  unfold fromString
  dsimp only
  rw [if_pos h]

/-- **C50.** A string whose checksum is wrong is refused. -/
theorem C50_reject_checksum (s body ck : Bytes) (hd : Base58.decode s = body ++ ck) (hc : ck.length = 4)
    (h : (sha256d body).take 4 ≠ ck) : ∃ e, fromString s = .err e := by
  by_cases hl : (Base58.decode s).length = 82
  · have hb : body.length = 78 := by rw [hd, List.length_append] at hl; omega
    unfold fromString
    dsimp only
    rw [if_neg (by simpa using hl)]
    have e1 : (Base58.decode s).take 78 = body := by rw [hd, take_prefix hb]
    have e2 : (Base58.decode s).drop 78 = ck := by rw [hd, drop_prefix hb]
    rw [e1, e2]
    cases hk : parseKey (((Base58.decode s).drop 45).take 33) with
    | err e => exact ⟨e, rfl⟩
    | ok m => rw [Res.ok_bind, if_pos h]; exact ⟨_, rfl⟩
    | panic =>
      exfalso
      unfold parseKey at hk
      split at hk
      · rw [C61_prvFromBytes] at hk; cases hk
      · rw [Res.bind_eq_panic] at hk
        rcases hk with hk | ⟨_, _, hk⟩
        · exact C60_no_panic _ hk
        · cases hk
  · exact ⟨_, C50_reject_length s hl⟩

/-- **C50.** What is accepted is the text of the key, with the version prefix it came with: an accepted string has 82
bytes, a right checksum, and the fields of the key. -/
theorem C50_accepted (s : Bytes) (k : HDKey) (h : fromString s = .ok k) :
    ∃ v, v.length = 4 ∧ HDKey.toString v v k = .ok s ∧ WF k ∧ ∀ q, k.key = .pub (keyOf q) → q ≠ 0 := by
  have hw := C49_keys.2.2.2 s k h
  unfold fromString at h
  dsimp only at h
  split at h
  · cases h
  rename_i hl
  rw [not_not] at hl
  rw [Res.bind_eq_ok] at h
  obtain ⟨m, hm, h⟩ := h
  split at h
  · cases h
  rename_i hck
  rw [not_not] at hck
  have h := Res.ok.inj h
  have hl33 : (((Base58.decode s).drop 45).take 33).length = 33 := by
    rw [List.length_take, List.length_drop, hl]; rfl
  have hkey : k.key = m := by rw [← h]
  have hv : ((Base58.decode s).take 4).length = 4 := by rw [List.length_take, hl]; rfl
  have hs : ((Base58.decode s).drop 78).length = 4 := by rw [List.length_drop, hl]
  have hse : Base58.encode (Base58.decode s) = s := by
    apply C05_encode_decode
    intro c hc
    by_contra hn
    rw [C05_invalid_empty s ⟨c, hc, hn⟩] at hl
    cases hl
  refine ⟨(Base58.decode s).take 4, hv, ?_, hw, ?_⟩
  · obtain ⟨key, hl', hp, hq, ht⟩ := C50_text ((Base58.decode s).take 4) ((Base58.decode s).take 4) k hw
    have hkk : key = ((Base58.decode s).drop 45).take 33 := by
      rcases parseKey_wf hl33 hm with ⟨d, rfl, hd, he⟩ | ⟨q, rfl, hq0, he⟩
      · rw [he, hp _ hkey]
      · obtain ⟨xb, hx, e1⟩ := hq q hkey hq0
        obtain ⟨yb, hy, e2⟩ := he
        rw [e1, e2, is32_unique hx hy]
    have hver : version ((Base58.decode s).take 4) ((Base58.decode s).take 4) k = (Base58.decode s).take 4 := by
      unfold version
      split <;> rfl
    dsimp only at ht
    rw [hver, hkk] at ht
    have hb := ext_of_length hl
    obtain ⟨_, _, _, _, _, _, _, f8⟩ := ext_fields ((Base58.decode s).getD 4 0) hv
      (show (((Base58.decode s).drop 5).take 4).length = 4 by rw [List.length_take, List.length_drop, hl]; rfl)
      (show (((Base58.decode s).drop 9).take 4).length = 4 by rw [List.length_take, List.length_drop, hl]; rfl)
      (show (((Base58.decode s).drop 13).take 32).length = 32 by rw [List.length_take, List.length_drop, hl]; rfl) hl33 hs
    rw [← hb] at f8
    rw [ht, ← h]
    dsimp only
    rw [← f8, hck, ← hb, hse]
  · intro q hq
    rw [hkey] at hq
    rcases parseKey_wf hl33 hm with ⟨d, rfl, hd, he⟩ | ⟨q', rfl, hq0, he⟩
    · cases hq
    · intro h0
      subst h0
      have hq := Material.pub.inj hq
      have hx : (coords q').2 = 0 := congrArg PubKey.y hq
      exact y_ne hq0 hx

/-- Parsing never panics. -/
theorem C50_no_panic (s : Bytes) : fromString s ≠ .panic := by
  intro h
  unfold fromString at h
  dsimp only at h
  split at h
  · cases h
  rw [Res.bind_eq_panic] at h
  rcases h with hk | ⟨_, _, h⟩
  · unfold parseKey at hk
    split at hk
    · rw [C61_prvFromBytes] at hk; cases hk
    · rw [Res.bind_eq_panic] at hk
      rcases hk with hk | ⟨_, _, hk⟩
      · exact C60_no_panic _ hk
      · cases hk
  · split at h <;> cases h

/-! ### C51 -/

theorem steps_components {ws : List Bytes} {is : List UInt32} (h : List.Forall₂ Component ws is) :
    ∀ k, deriveSteps k ws = deriveAll k is := by
  induction h with
  | nil => intro k; rfl
  | cons h _ ih =>
    intro k
    unfold deriveSteps deriveAll
    rw [stepIndex_of h, Res.ok_bind]
    congr 1
    funext k'
    exact ih k'

omit [Hashes] in
theorem split_path {ws : List Bytes} {is : List UInt32} (h : List.Forall₂ Component ws is) :
    split (pathText ws) = [0x6d] :: ws := by
  have hs : ∀ v ∈ ws, 0x2f ∉ v := by
    induction h with
    | nil => simp
    | cons h _ ih =>
      intro v hv
      rcases List.mem_cons.mp hv with rfl | hv
      · exact component_no_slash h
      · exact ih v hv
  exact split_join [0x6d] ws (by decide) hs

/-- **C51.** A path applies the derivations it spells, in order. -/
theorem C51_path (s : Bytes) (is : List UInt32) (h : PathIs s is) (k : HDKey) : deriveByPath k s = deriveAll k is := by
  unfold deriveByPath
  rcases h with ⟨rfl, rfl⟩ | ⟨ws, hw, rfl⟩
  · rw [if_pos rfl]; rfl
  · rw [if_neg (by unfold pathText; simp), split_path hw]
    dsimp only
    rw [if_neg (by simp), steps_components hw]

/-- A text spells at most one path. -/
theorem C51_unambiguous (s : Bytes) (a b : List UInt32) (ha : PathIs s a) (hb : PathIs s b) : a = b := by
  rcases ha with ⟨rfl, rfl⟩ | ⟨ws, hw, rfl⟩ <;> rcases hb with ⟨h1, h2⟩ | ⟨ws', hw', h1⟩
  · exact h2.symm
  · unfold pathText at h1; cases h1
  · unfold pathText at h1; cases h1
  · have e := split_path hw
    rw [h1, split_path hw'] at e
    injection e with _ e
    subst e
    clear h1
    induction hw generalizing b with
    | nil => cases hw'; rfl
    | cons h _ ih =>
      cases hw' with
      | cons h' t =>
        have e1 := stepIndex_of h
        rw [stepIndex_of h'] at e1
        rw [Res.ok.inj e1, ih _ t]

/-- A hardened component whose number does not fit. -/
def Overflow (w : Bytes) : Prop := ∃ u n, w = u ++ [0x27] ∧ Decimal u n ∧ 2 ^ 31 ≤ n ∧ n < 2 ^ 32

theorem steps_malformed (ws : List Bytes) (hw : ∀ w ∈ ws, w ≠ [] ∧ ¬ Overflow w) : ∀ k, WF k →
    (∃ e, deriveSteps k ws = .err e) ∨ ∃ is, List.Forall₂ Component ws is := by
  induction ws with
  | nil => intro k _; exact Or.inr ⟨[], .nil⟩
  | cons w ws ih =>
    intro k hk
    obtain ⟨h1, h2⟩ := hw w List.mem_cons_self
    unfold deriveSteps
    cases e : stepIndex w with
    | err er => exact Or.inl ⟨er, rfl⟩
    | panic => exact absurd (stepIndex_panic e) h1
    | ok i =>
      rw [Res.ok_bind]
      have hc : Component w i := by
        rcases stepIndex_inv e with h | ⟨u, n, a, b, c, d, _⟩
        · exact h
        · exact absurd ⟨u, n, a, b, c, d⟩ h2
      cases hd : derive k i with
      | err e => exact Or.inl ⟨e, rfl⟩
      | panic => exact absurd hd (derive_no_panic hk i)
      | ok k' =>
        rw [Res.ok_bind]
        rcases ih (fun v hv => hw v (List.mem_cons_of_mem _ hv)) k' (derive_wf hk hd).1 with h | ⟨is, h⟩
        · exact Or.inl h
        · exact Or.inr ⟨i :: is, .cons hc h⟩

/-- **C51 (partial).** Full statement: every text that spells no path is an error. Proved: for texts without an empty
component and without a hardened number of 2^31 or more. -/
theorem C51_malformed_partial (s : Bytes) (hs : ¬ ∃ is, PathIs s is)
    (hb : ¬ ∃ ws, s = pathText ws ∧ (∀ w ∈ ws, 0x2f ∉ w) ∧ ∃ w ∈ ws, w = [] ∨ Overflow w) (k : HDKey) (hk : WF k) :
    ∃ e, deriveByPath k s = .err e := by
  unfold deriveByPath
  by_cases h0 : s = []
  · exact absurd ⟨[], Or.inl ⟨h0, rfl⟩⟩ hs
  rw [if_neg h0]
  cases e : split s with
  | nil => exact absurd e (split_ne s)
  | cons m ws =>
    dsimp only
    by_cases hm : m = [0x6d]
    · rw [if_neg (by simpa using hm)]
      obtain ⟨e1, _, e3⟩ := split_spec s m ws e
      subst hm
      have e1 : s = pathText ws := e1
      have hw : ∀ w ∈ ws, w ≠ [] ∧ ¬ Overflow w := by
        intro w hw
        constructor
        · exact fun h => hb ⟨ws, e1, e3, w, hw, Or.inl h⟩
        · exact fun h => hb ⟨ws, e1, e3, w, hw, Or.inr h⟩
      rcases steps_malformed ws hw k hk with h | ⟨is, h⟩
      · exact h
      · exact absurd ⟨is, Or.inr ⟨ws, h, e1⟩⟩ hs
    · rw [if_pos hm]
      exact ⟨_, rfl⟩

/-- **C51**, negation: `m/` panics. -/
theorem C51_negation_panic (k : HDKey) : deriveByPath k (ascii ['m', '/']) = .panic ∧ ¬ ∃ is, PathIs (ascii ['m', '/']) is := by
  constructor
  · rfl
  · rintro ⟨is, ⟨h, _⟩ | ⟨ws, hw, h⟩⟩
    · cases h
    · have e : split (ascii ['m', '/']) = [[0x6d], []] := by decide
      rw [h, split_path hw] at e
      injection e with _ e
      subst e
      cases hw with
      | cons h _ =>
        rcases h with ⟨n, ⟨h, _⟩, _⟩ | ⟨u, n, h, _⟩
        · exact h rfl
        · cases u <;> cases h

/-- **C51**, negation: hardened child 2147483648 spells no path, and gives the child 0, not hardened. -/
theorem C51_negation_wrap (k : HDKey) :
    deriveByPath k (ascii ['m', '/', '2', '1', '4', '7', '4', '8', '3', '6', '4', '8', '\'']) = deriveByPath k (ascii ['m', '/', '0']) ∧
    ¬ ∃ is, PathIs (ascii ['m', '/', '2', '1', '4', '7', '4', '8', '3', '6', '4', '8', '\'']) is := by
  constructor
  · rfl
  · rintro ⟨is, ⟨h, _⟩ | ⟨ws, hw, h⟩⟩
    · cases h
    · have e : split (ascii ['m', '/', '2', '1', '4', '7', '4', '8', '3', '6', '4', '8', '\'']) =
          [[0x6d], ascii ['2', '1', '4', '7', '4', '8', '3', '6', '4', '8', '\'']] := by decide
      rw [h, split_path hw] at e
      injection e with _ e
      subst e
      cases hw with
      | cons h _ =>
        rcases h with ⟨n, h, _⟩ | ⟨u, n, h, hd, hn, _⟩
        · obtain ⟨c, hc, hq⟩ := decimal_last h
          have : c = 0x27 := by
            have e : (ascii ['2', '1', '4', '7', '4', '8', '3', '6', '4', '8', '\'']).getLast? = some 0x27 := by decide
            rw [e] at hc
            exact (Option.some.inj hc).symm
          subst this
          revert hq; decide
        · have hu : u = ascii ['2', '1', '4', '7', '4', '8', '3', '6', '4', '8'] := by
            have := congrArg List.dropLast h
            rw [List.dropLast_concat] at this
            rw [← this]; rfl
          have h1 := (parse_iff u n).mpr ⟨hd, lt_trans hn (by decide)⟩
          have h2 : parseUint32 u = some 2147483648 := by rw [hu]; decide
          rw [h2] at h1
          have := Option.some.inj h1
          omega

/-! ### C87 -/

theorem fingerprint_ok {q : Pt} (hq : q ≠ 0) {pb : Bytes} (h : serializeCompressed (keyOf q) = .ok pb) :
    Compressed q pb ∧ Fingerprint q ((hash160 pb).take 4) := by
  obtain ⟨b, h1, _, h2, _⟩ := compressed_ok q
  rw [h] at h1
  cases Res.ok.inj h1
  exact ⟨h2 hq, pb, h2 hq, by rw [hash160_eq]⟩

/-- **C87.** The master key is the one of BIP 32: HMAC-SHA512 of the seed under the key "Bitcoin seed". -/
theorem C87_master (seed : Bytes) : ∃ k d, HDKey.new seed = .ok k ∧ k.key = .prv ⟨keyOf (d • G), d⟩ ∧
    (let I := hmac512 [0x42, 0x69, 0x74, 0x63, 0x6f, 0x69, 0x6e, 0x20, 0x73, 0x65, 0x65, 0x64] seed;
      d = beNat (I.take 32) ∧ k.chainCode = I.drop 32) ∧ k.depth = 0 ∧ k.parentFP = [0, 0, 0, 0] ∧ k.childNum = [0, 0, 0, 0] := by
  have e : seedKey = [0x42, 0x69, 0x74, 0x63, 0x6f, 0x69, 0x6e, 0x20, 0x73, 0x65, 0x65, 0x64] := by decide
  have h := new_ok seed
  rw [e] at h
  exact ⟨_, _, h, rfl, ⟨rfl, rfl⟩, rfl, rfl, rfl⟩

/-- **C87 (partial).** Full statement: and derivation is refused when the left half is N or more, when the sum is zero,
and when the depth would pass 255. Proved: private derivation is CKDpriv of BIP 32 without these refusals, the depth
counted modulo 256. -/
theorem C87_private_partial (k : HDKey) (h : WF k) (d : ℕ) (hk : k.key = .prv ⟨keyOf (d • G), d⟩) (hd : ¬ N ∣ d) (i : UInt32) :
    ∃ I fp c, ChildHash k.chainCode d (d • G) i.toNat I ∧ Fingerprint (d • G) fp ∧ derive k i = .ok c ∧
      (∃ d', d' = (beNat (I.take 32) + d) % N ∧ c.key = .prv ⟨keyOf (d' • G), d'⟩) ∧
      c.chainCode = I.drop 32 ∧ c.parentFP = fp ∧ c.childNum = be 4 i.toNat ∧ c.depth = k.depth + 1 := by
  have hw := h.key
  rw [hk] at hw
  have hq : d • G ≠ 0 := fun hz => hd ((smul_zero_iff G_ne d).mp hz)
  obtain ⟨I, pb, h1, _, h2, h3⟩ := derive_private h hk i
  have hp : publicKey k = keyOf (d • G) := by unfold publicKey; rw [hk]
  rw [hp] at h2
  obtain ⟨hc, hf⟩ := fingerprint_ok hq h2
  refine ⟨I, _, _, ?_, hf, h3, ⟨_, rfl, ?_⟩, rfl, rfl, uint32ToBytes_be i, rfl⟩
  · unfold getIntermediary hashedKey at h1
    rw [hk, hp] at h1
    by_cases hi : i ≥ hardenedKeyStart
    · rw [if_pos hi] at h1
      left
      refine ⟨UInt32.le_iff_toNat_le.mp hi, ?_⟩
      rw [← Res.ok.inj h1, ← uint32ToBytes_be, prvSerialize_be hw.1]
    · rw [if_neg hi, h2] at h1
      right
      refine ⟨UInt32.lt_iff_toNat_lt.mp (UInt32.not_le.mp hi), pb, hc, ?_⟩
      rw [← Res.ok.inj h1, ← uint32ToBytes_be]
  · show Material.prv ⟨keyOf _, _⟩ = _
    rw [mod_smul, Nat.add_comm d]
    rfl

/-- **C87 (partial).** As above for CKDpub; a left half that is a multiple of N is refused, any other is not. -/
theorem C87_public_partial (k : HDKey) (h : WF k) (q : Pt) (hk : k.key = .pub (keyOf q)) (hq : q ≠ 0) (i : UInt32)
    (hi : i.toNat < 2 ^ 31) :
    ∃ I fp, ChildHash k.chainCode 0 q i.toNat I ∧ Fingerprint q fp ∧
      (N ∣ beNat (I.take 32) → ∃ e, derive k i = .err e) ∧
      (¬ N ∣ beNat (I.take 32) → ∃ c, derive k i = .ok c ∧ c.key = .pub (keyOf (beNat (I.take 32) • G + q)) ∧
        c.chainCode = I.drop 32 ∧ c.parentFP = fp ∧ c.childNum = be 4 i.toNat ∧ c.depth = k.depth + 1) := by
  have hi' : i < hardenedKeyStart := UInt32.lt_iff_toNat_lt.mpr hi
  obtain ⟨I, pb, h1, _, h2, h3, h4⟩ := derive_public h hk hi'
  obtain ⟨hc, hf⟩ := fingerprint_ok hq h2
  refine ⟨I, _, Or.inr ⟨hi, pb, hc, ?_⟩, hf, h4, fun hn => ⟨_, h3 hn, ?_, rfl, rfl, uint32ToBytes_be i, rfl⟩⟩
  · unfold getIntermediary hashedKey at h1
    rw [if_neg (UInt32.not_le.mpr hi')] at h1
    have hp : publicKey k = keyOf q := by unfold publicKey; rw [hk]
    rw [hp, h2] at h1
    rw [← Res.ok.inj h1, ← uint32ToBytes_be]
  · show Material.pub (keyOf _) = _
    rw [add_comm]
    rfl

/-- **C87**, negation: a child of a key at depth 255 has depth 0, the depth of a master key. -/
theorem C87_negation_depth (k : HDKey) (h : WF k) (hp : IsPrv k) (hd : k.depth = 255) (i : UInt32) :
    ∃ c, derive k i = .ok c ∧ c.depth = 0 := by
  obtain ⟨p, hp⟩ := hp
  obtain ⟨I, pb, _, _, _, h3⟩ := derive_private h hp i
  refine ⟨_, h3, ?_⟩
  show k.depth + 1 = 0
  rw [hd]; rfl

end

/-- `m/44'/7` spells hardened child 44, then child 7. -/
example : PathIs (ascii ['m', '/', '4', '4', '\'', '/', '7']) [0x8000002c, 7] := by
  refine Or.inr ⟨[ascii ['4', '4', '\''], ascii ['7']], .cons (Or.inr ⟨ascii ['4', '4'], 44, rfl, ?_, by decide, rfl⟩)
    (.cons (Or.inl ⟨7, ?_, by decide, rfl⟩) .nil), rfl⟩
  · exact ⟨by decide, [4, 4], by decide, by decide, rfl⟩
  · exact ⟨by decide, [7], by decide, by decide, rfl⟩

/-- `x/1` is malformed in the sense of the partial theorem. -/
example : (¬ ∃ is, PathIs (ascii ['x', '/', '1']) is) ∧ ¬ ∃ ws, ascii ['x', '/', '1'] = pathText ws ∧ (∀ w ∈ ws, 0x2f ∉ w) ∧
    ∃ w ∈ ws, w = [] ∨ Overflow w := by
  constructor
  · rintro ⟨is, ⟨h, _⟩ | ⟨ws, hw, h⟩⟩
    · cases h
    · have := congrArg List.head? h
      revert this
      unfold pathText
      simp [ascii]
  · rintro ⟨ws, h, _⟩
    have := congrArg List.head? h
    revert this
    unfold pathText
    simp [ascii]

/-- Hash functions that return bytes 255. -/
@[reducible] def onesHashes : Hashes where
  sha256 _ := List.replicate 32 255
  sha512 _ := List.replicate 64 255
  sha256_length _ := rfl
  sha512_length _ := rfl

/-- **C87**, negation: with hash functions that return bytes 255 the left half is above N, which BIP 32 refuses, and a
child is made. -/
theorem C87_negation_range : ∃ (_ : Hashes) (k c : HDKey) (I : Bytes), WF k ∧ getIntermediary k 0 = .ok I ∧ N ≤ beNat (I.take 32) ∧
    derive k 0 = .ok c := by
  have hk : prvFromBytes [1] = .ok ⟨keyOf (natOfBE [1] • G), natOfBE [1]⟩ := C61_prvFromBytes _
  have hw : WF ⟨List.replicate 4 0, List.replicate 4 0, List.replicate 32 0, 0, .prv ⟨keyOf (natOfBE [1] • G), natOfBE [1]⟩⟩ :=
    ⟨rfl, rfl, rfl, by decide +kernel, rfl⟩
  obtain ⟨I, pb, h1, _, _, h3⟩ := @derive_private onesHashes _ _ hw rfl 0
  refine ⟨onesHashes, _, _, I, hw, h1, ?_, h3⟩
  have hI : I = List.replicate 64 255 := by
    unfold getIntermediary at h1
    rw [Res.bind_eq_ok] at h1
    obtain ⟨_, _, g1⟩ := h1
    exact (Res.ok.inj g1).symm
  rw [hI]
  decide +kernel

/-- Private key 1 meets the hypotheses of C87. -/
example : WF ⟨List.replicate 4 0, List.replicate 4 0, List.replicate 32 0, 255, .prv ⟨keyOf (1 • G), 1⟩⟩ ∧ ¬ N ∣ 1 :=
  ⟨⟨rfl, rfl, rfl, by decide, rfl⟩, by decide +kernel⟩

end Toku.Props
