import Verif.Model.HDKey
import Verif.Spec.HDKey
import Verif.Props.Keys
import Verif.Proof.Nonce
import Verif.Proof.Order
import Verif.Proof.Ripemd
import Verif.Proof.Base58
/-
Lemmas on extended keys.
-/
namespace Toku.HDKey
open Toku.Curve Toku.Keys Toku.Spec Toku.Props

/-- The extended keys there are: the fields have their lengths, a private key has at most 32 bytes and the right
public key, a public key holds a point, which may be the one at infinity. -/
structure WF (k : HDKey) : Prop where
  num : k.childNum.length = 4
  fp : k.parentFP.length = 4
  chain : k.chainCode.length = 32
  key : match k.key with
    | .prv p => p.d < 2 ^ 256 ∧ p.pub = keyOf (p.d • G)
    | .pub p => ∃ q : Pt, p = keyOf q

/-- A private extended key. -/
def IsPrv (k : HDKey) : Prop := ∃ p, k.key = .prv p

theorem uint32ToBytes_be (i : UInt32) : uint32ToBytes i = be 4 i.toNat := by
  have hi := i.toNat_lt
  unfold uint32ToBytes
  unfold be; unfold be; unfold be; unfold be; unfold be
  simp only [List.nil_append, List.cons_append]
  have e : ∀ (a : UInt8) (n : ℕ), a.toNat = n % 256 → a = UInt8.ofNat (n % 256) := by
    intro a n h
    rw [← h, UInt8.ofNat_toNat]
  rw [e (i >>> 24).toUInt8 (i.toNat / 256 / 256 / 256), e (i >>> 16).toUInt8 (i.toNat / 256 / 256),
    e (i >>> 8).toUInt8 (i.toNat / 256), e i.toUInt8 i.toNat]
  all_goals simp [Nat.shiftRight_eq_div_pow, Nat.div_div_eq_div_mul]

theorem uint32ToBytes_length (i : UInt32) : (uint32ToBytes i).length = 4 := rfl

theorem coords_range (q : Pt) : 0 ≤ (coords q).1 ∧ (coords q).1 < P := by
  by_cases h : q = 0
  · subst h
    show 0 ≤ (0 : ℤ) ∧ (0 : ℤ) < P
    exact ⟨le_refl _, by decide +kernel⟩
  · exact (coords_on h).1

theorem secMarshal_any (q : Pt) :
    ∃ b, serializeCompressed (keyOf q) = .ok ((if (coords q).2 % 2 = 1 then 3 else 2) :: b) ∧ Is32 b (coords q).1 :=
  secMarshal_ok (coords_range q) (coords q).2

/-- What a point is written as, also the one at infinity. -/
theorem compressed_ok (q : Pt) : ∃ bs, serializeCompressed (keyOf q) = .ok bs ∧ bs.length = 33 ∧ (q ≠ 0 → Compressed q bs) ∧
    bs.getD 0 0 ≠ 0 := by
  obtain ⟨b, h1, h2⟩ := secMarshal_any q
  refine ⟨_, h1, by rw [List.length_cons, h2.1], fun _ => ⟨b, h2, rfl⟩, ?_⟩
  rw [List.getD_cons_zero]
  split <;> decide

theorem prvSerialize_be {p : PrvKey} (h : p.d < 2 ^ 256) : prvSerialize p = be 32 p.d := by
  have hl : (natToBE p.d).length ≤ 32 := natToBE_length_le (lt_of_lt_of_le h (by decide +kernel))
  unfold prvSerialize
  apply natOfBE_inj
  · rw [Ecdsa.be_length, List.length_append, List.length_replicate]; omega
  · rw [natOfBE_replicate, natOfBE_natToBE, Ecdsa.natOfBE_be, Nat.mod_eq_of_lt]
    exact lt_of_lt_of_le h (by decide +kernel)

theorem mod_smul (n : ℕ) : (n % N) • G = n • G := by
  conv_rhs => rw [← Nat.div_add_mod n N, add_smul, mul_comm, mul_smul, N_smul_G]
  simp

section
variable [Hashes]

omit [Hashes] in
theorem bound32 (bs : Bytes) (h : bs.length ≤ 32) : natOfBE bs < 2 ^ 256 :=
  lt_of_lt_of_le (natOfBE_lt bs) (le_trans (Nat.pow_le_pow_right (by decide) h) (by decide +kernel))

theorem new_ok (seed : Bytes) : new seed = .ok ⟨[0, 0, 0, 0], [0, 0, 0, 0], (hmac512 seedKey seed).drop 32, 0,
    .prv ⟨keyOf (natOfBE ((hmac512 seedKey seed).take 32) • G), natOfBE ((hmac512 seedKey seed).take 32)⟩⟩ := by
  unfold new
  dsimp only
  rw [C61_prvFromBytes]
  rfl

theorem new_wf (seed : Bytes) : ∃ k, new seed = .ok k ∧ WF k ∧ IsPrv k := by
  refine ⟨_, new_ok seed, ⟨rfl, rfl, ?_, ?_⟩, ⟨_, rfl⟩⟩
  · show ((hmac512 seedKey seed).drop 32).length = 32
    rw [List.length_drop, hmac512_length]
  · refine ⟨bound32 _ ?_, rfl⟩
    rw [List.length_take]; omega

omit [Hashes] in
theorem hdPublicKey_wf {k : HDKey} (h : WF k) : WF (hdPublicKey k) := by
  refine ⟨h.num, h.fp, h.chain, ?_⟩
  have := h.key
  unfold hdPublicKey publicKey
  dsimp only
  cases e : k.key with
  | prv p => rw [e] at this; exact ⟨_, this.2⟩
  | pub p => rw [e] at this; exact this

omit [Hashes] in
/-- The point of a key. -/
theorem point_of {k : HDKey} (h : WF k) : ∃ q, publicKey k = keyOf q := by
  have := h.key
  unfold publicKey
  cases e : k.key with
  | prv p => rw [e] at this; exact ⟨_, this.2⟩
  | pub p => rw [e] at this; exact this

theorem intermediary_public {k : HDKey} (h : WF k) {i : UInt32} (hi : i < hardenedKeyStart) :
    ∃ I, getIntermediary k i = .ok I ∧ getIntermediary (hdPublicKey k) i = .ok I ∧ I.length = 64 := by
  obtain ⟨q, hq⟩ := point_of h
  obtain ⟨bs, hb, _⟩ := compressed_ok q
  have e : publicKey (hdPublicKey k) = publicKey k := rfl
  have hn : ¬ i ≥ hardenedKeyStart := UInt32.not_le.mpr hi
  refine ⟨hmac512 k.chainCode (bs ++ uint32ToBytes i), ?_, ?_, hmac512_length _ _⟩
  · unfold getIntermediary hashedKey
    rw [if_neg hn, hq, hb]
    rfl
  · unfold getIntermediary hashedKey
    rw [if_neg hn, e, hq, hb]
    rfl

theorem intermediary_private {k : HDKey} {p : PrvKey} (h : WF k) (hk : k.key = .prv p) (i : UInt32) :
    ∃ I, getIntermediary k i = .ok I ∧ I.length = 64 := by
  by_cases hi : i < hardenedKeyStart
  · obtain ⟨I, h1, _, h2⟩ := intermediary_public h hi
    exact ⟨I, h1, h2⟩
  · unfold getIntermediary hashedKey
    rw [if_pos (UInt32.not_lt.mp hi), hk]
    exact ⟨_, rfl, hmac512_length _ _⟩

omit [Hashes] in
theorem prvAdd_ok (p : PrvKey) (n : Bytes) :
    prvAdd p n = .ok ⟨keyOf ((p.d + natOfBE n) • G), (p.d + natOfBE n) % N⟩ := by
  unfold prvAdd
  rw [C61_prvFromBytes, natOfBE_natToBE, mod_smul]

/-- Private derivation. -/
theorem derive_private {k : HDKey} {p : PrvKey} (h : WF k) (hk : k.key = .prv p) (i : UInt32) :
    ∃ I pb, getIntermediary k i = .ok I ∧ I.length = 64 ∧ serializeCompressed (publicKey k) = .ok pb ∧
      derive k i = .ok ⟨uint32ToBytes i, (hash160 pb).take 4, I.drop 32, k.depth + 1,
        .prv ⟨keyOf ((p.d + natOfBE (I.take 32)) • G), (p.d + natOfBE (I.take 32)) % N⟩⟩ := by
  obtain ⟨I, h1, h2⟩ := intermediary_private h hk i
  obtain ⟨q, hq⟩ := point_of h
  obtain ⟨pb, hb, _⟩ := compressed_ok q
  have hp : publicKey k = p.pub := by unfold publicKey; rw [hk]
  refine ⟨I, pb, h1, h2, by rw [hq, hb], ?_⟩
  unfold derive
  rw [hk]
  dsimp only
  rw [h1, Res.ok_bind, ← hp, hq, hb, Res.ok_bind, prvAdd_ok]
  rfl

/-- Public derivation. -/
theorem derive_public {k : HDKey} {q : Pt} (h : WF k) (hk : k.key = .pub (keyOf q)) {i : UInt32} (hi : i < hardenedKeyStart) :
    ∃ I pb, getIntermediary k i = .ok I ∧ I.length = 64 ∧ serializeCompressed (keyOf q) = .ok pb ∧
      (¬ N ∣ natOfBE (I.take 32) →
        derive k i = .ok ⟨uint32ToBytes i, (hash160 pb).take 4, I.drop 32, k.depth + 1,
          .pub (keyOf (q + natOfBE (I.take 32) • G))⟩) ∧
      (N ∣ natOfBE (I.take 32) → ∃ e, derive k i = .err e) := by
  obtain ⟨I, h1, _, h2⟩ := intermediary_public h hi
  obtain ⟨pb, hb, _⟩ := compressed_ok q
  refine ⟨I, pb, h1, h2, hb, ?_⟩
  have hn : ¬ i ≥ hardenedKeyStart := UInt32.not_le.mpr hi
  constructor
  · intro hd
    have hz : natOfBE (I.take 32) • G ≠ 0 := fun hz => hd ((smul_zero_iff G_ne _).mp hz)
    have hu := (C59_round_trip _ hz).2.1
    unfold derive
    rw [hk]
    dsimp only
    rw [if_neg hn, h1, Res.ok_bind, hb, Res.ok_bind, C61_prvFromBytes, Res.ok_bind]
    cases hs : serializeUncompressed (keyOf (natOfBE (I.take 32) • G)) with
    | err e => rw [hs] at hu; cases hu
    | panic => rw [hs] at hu; cases hu
    | ok ub =>
      rw [hs, Res.ok_bind] at hu
      rw [Res.ok_bind, hu, Res.ok_bind, C61_pubAdd]
      rfl
  · intro hd
    have hz : natOfBE (I.take 32) • G = 0 := (smul_zero_iff G_ne _).mpr hd
    unfold derive
    rw [hk]
    dsimp only
    rw [if_neg hn, h1, Res.ok_bind, hb, Res.ok_bind, C61_prvFromBytes, Res.ok_bind, hz]
    have e : keyOf (0 : Pt) = ⟨0, 0⟩ := rfl
    rw [e]
    refine ⟨errPubCurve, ?_⟩
    have : (serializeUncompressed ⟨0, 0⟩ >>= pubFromBytes) = .err errPubCurve := by decide +kernel
    cases hs : serializeUncompressed ⟨0, 0⟩ with
    | err e => rw [hs] at this; have h := Res.err.inj this; subst h; exact absurd hs (by decide +kernel)
    | panic => rw [hs] at this; cases this
    | ok ub =>
      rw [hs, Res.ok_bind] at this
      rw [Res.ok_bind, this]
      rfl

theorem derive_wf {k k' : HDKey} (h : WF k) {i : UInt32} (hd : derive k i = .ok k') : WF k' ∧ (IsPrv k ↔ IsPrv k') := by
  have hk := h.key
  cases e : k.key with
  | prv p =>
    rw [e] at hk
    obtain ⟨I, pb, _, hI, _, h1⟩ := derive_private h e i
    rw [h1] at hd
    have hd := Res.ok.inj hd
    subst hd
    refine ⟨⟨rfl, ?_, ?_, ?_⟩, ⟨fun _ => ⟨_, rfl⟩, fun _ => ⟨_, e⟩⟩⟩
    · show ((hash160 pb).take 4).length = 4
      rw [List.length_take, hash160_length]; rfl
    · show (I.drop 32).length = 32
      rw [List.length_drop, hI]
    · refine ⟨lt_trans (Nat.mod_lt _ (by decide +kernel)) (by decide +kernel), ?_⟩
      show keyOf _ = keyOf _
      rw [mod_smul]
  | pub pk =>
    rw [e] at hk
    obtain ⟨q, rfl⟩ := hk
    by_cases hi : i < hardenedKeyStart
    · obtain ⟨I, pb, _, hI, _, h1, h2⟩ := derive_public h e hi
      by_cases hn : N ∣ natOfBE (I.take 32)
      · obtain ⟨er, h2⟩ := h2 hn
        rw [h2] at hd; cases hd
      · rw [h1 hn] at hd
        have hd := Res.ok.inj hd
        subst hd
        refine ⟨⟨rfl, ?_, ?_, ⟨_, rfl⟩⟩, ⟨fun ⟨_, hp⟩ => ?_, fun ⟨_, hp⟩ => ?_⟩⟩
        · show ((hash160 pb).take 4).length = 4
          rw [List.length_take, hash160_length]; rfl
        · show (I.drop 32).length = 32
          rw [List.length_drop, hI]
        · rw [e] at hp; cases hp
        · cases hp
    · unfold derive at hd
      rw [e] at hd
      dsimp only at hd
      rw [if_pos (UInt32.not_lt.mp hi)] at hd
      cases hd

/-- Deriving never panics. -/
theorem derive_no_panic {k : HDKey} (h : WF k) (i : UInt32) : derive k i ≠ .panic := by
  have hk := h.key
  cases e : k.key with
  | prv p =>
    obtain ⟨I, pb, _, hI, _, h1⟩ := derive_private h e i
    rw [h1]; intro h; cases h
  | pub pk =>
    rw [e] at hk
    obtain ⟨q, rfl⟩ := hk
    by_cases hi : i < hardenedKeyStart
    · obtain ⟨I, pb, _, hI, _, h1, h2⟩ := derive_public h e hi
      by_cases hn : N ∣ natOfBE (I.take 32)
      · obtain ⟨er, h2⟩ := h2 hn
        rw [h2]; intro h; cases h
      · rw [h1 hn]; intro h; cases h
    · unfold derive
      rw [e]
      dsimp only
      rw [if_pos (UInt32.not_lt.mp hi)]
      intro h; cases h

end

theorem parseKey_wf {b : Bytes} {m : Material} (hl : b.length = 33) (h : parseKey b = .ok m) :
    (∃ d, m = .prv ⟨keyOf (d • G), d⟩ ∧ d < 2 ^ 256 ∧ b = 0 :: be 32 d) ∨ (∃ q, m = .pub (keyOf q) ∧ q ≠ 0 ∧ Compressed q b) := by
  unfold parseKey at h
  split at h
  · rename_i h0
    left
    rw [C61_prvFromBytes, Res.ok_bind, Res.pure_eq] at h
    have h := Res.ok.inj h
    rw [← h]
    cases b with
    | nil => cases hl
    | cons a b =>
      rw [List.getD_cons_zero] at h0
      subst h0
      have hl : b.length = 32 := by simpa using hl
      refine ⟨natOfBE b, by rw [List.drop_succ_cons, List.drop_zero], bound32 _ (le_of_eq hl), ?_⟩
      refine congrArg (List.cons 0) ?_
      apply natOfBE_inj
      · rw [Ecdsa.be_length, hl]
      · rw [Ecdsa.natOfBE_be, Nat.mod_eq_of_lt]
        rw [← hl]; exact natOfBE_lt b
  · right
    rw [Res.bind_eq_ok] at h
    obtain ⟨p, hp, h⟩ := h
    have h := Res.ok.inj h
    subst h
    obtain ⟨_, _, _, q, hq, rfl, hs⟩ := C60_accepted_partial _ _ hp
    refine ⟨q, rfl, hq, ?_⟩
    have long : ∀ xb yb : Bytes, ∀ f : UInt8, Is32 xb (coords q).1 → Is32 yb (coords q).2 → b ≠ f :: (xb ++ yb) := by
      intro xb yb f hx hy he
      rw [he, List.length_cons, List.length_append, hx.1, hy.1] at hl
      cases hl
    rcases hs with hs | ⟨xb, yb, hx, hy, hs⟩ | ⟨xb, yb, hx, hy, hs⟩ | ⟨r, hr, xb, yb, hx, hy, hs⟩
    · exact hs
    · exact absurd hs (long xb yb _ hx hy)
    · exact absurd hs (long xb yb _ hx hy)
    · injection hs with _ hs
      rw [hs] at hr
      exact absurd hr (long xb yb _ hx hy)

theorem keyBytes_ok {k : HDKey} (h : WF k) : ∃ b, keyBytes k = .ok b ∧ b.length = 33 ∧
    (∀ p, k.key = .prv p → b = 0 :: be 32 p.d) ∧ (∀ q, k.key = .pub (keyOf q) → q ≠ 0 → Compressed q b) := by
  have hk := h.key
  unfold keyBytes
  cases e : k.key with
  | prv p =>
    rw [e] at hk
    dsimp only
    refine ⟨_, rfl, ?_, ?_, ?_⟩
    · rw [prvSerialize_be hk.1, List.length_cons, Ecdsa.be_length]
    · intro p' hp; cases hp; rw [prvSerialize_be hk.1]
    · intro q hq; cases hq
  | pub p =>
    rw [e] at hk
    obtain ⟨q, rfl⟩ := hk
    dsimp only
    obtain ⟨bs, h1, h2, h3, _⟩ := compressed_ok q
    refine ⟨bs, h1, h2, ?_, ?_⟩
    · intro p hp; cases hp
    · intro q' hq hne
      have hq := Material.pub.inj hq
      obtain ⟨bs', g1, _, g3, _⟩ := compressed_ok q'
      rw [← hq, h1] at g1
      cases Res.ok.inj g1
      exact g3 hne

theorem parseKey_prv (d : ℕ) (hd : d < 2 ^ 256) : parseKey (0 :: be 32 d) = .ok (.prv ⟨keyOf (d • G), d⟩) := by
  unfold parseKey
  rw [List.getD_cons_zero, if_pos rfl, List.drop_succ_cons, List.drop_zero, C61_prvFromBytes, Ecdsa.natOfBE_be,
    Nat.mod_eq_of_lt (lt_of_lt_of_le hd (by decide +kernel))]
  rfl

theorem parseKey_pub (q : Pt) (hq : q ≠ 0) (b : Bytes) (h : Compressed q b) : parseKey b = .ok (.pub (keyOf q)) := by
  have := C59_parse q hq b (Or.inl h)
  obtain ⟨xb, _, rfl⟩ := h
  unfold parseKey
  rw [List.getD_cons_zero, if_neg (by split <;> decide), this]
  rfl

/-! ### Text -/

theorem drop_prefix {a b : Bytes} {n : ℕ} (h : a.length = n) : (a ++ b).drop n = b := by
  rw [← h, List.drop_left]

theorem take_prefix {a b : Bytes} {n : ℕ} (h : a.length = n) : (a ++ b).take n = a := by
  rw [← h, List.take_left]

theorem ext_fields {v fp num chain key ck : Bytes} (d : UInt8) (hv : v.length = 4) (hf : fp.length = 4) (hn : num.length = 4)
    (hc : chain.length = 32) (hk : key.length = 33) (hs : ck.length = 4) :
    let data := extBytes v d fp num chain key ck
    data.length = 82 ∧ data.getD 4 0 = d ∧ (data.drop 5).take 4 = fp ∧ (data.drop 9).take 4 = num ∧
      (data.drop 13).take 32 = chain ∧ (data.drop 45).take 33 = key ∧ data.drop 78 = ck ∧
      data.take 78 = v ++ [d] ++ fp ++ num ++ chain ++ key := by
  intro data
  refine ⟨?_, ?_, ?_, ?_, ?_, ?_, ?_, ?_⟩
  · simp [data, extBytes, hv, hf, hn, hc, hk, hs]
  · have : data = v ++ (d :: (fp ++ num ++ chain ++ key ++ ck)) := by simp [data, extBytes]
    rw [this, List.getD_append_right _ _ _ _ (by omega), hv]
    rfl
  · have : data = (v ++ [d]) ++ (fp ++ (num ++ chain ++ key ++ ck)) := by simp [data, extBytes]
    rw [this, drop_prefix (by simp [hv]), take_prefix hf]
  · have : data = (v ++ [d] ++ fp) ++ (num ++ (chain ++ key ++ ck)) := by simp [data, extBytes]
    rw [this, drop_prefix (by simp [hv, hf]), take_prefix hn]
  · have : data = (v ++ [d] ++ fp ++ num) ++ (chain ++ (key ++ ck)) := by simp [data, extBytes]
    rw [this, drop_prefix (by simp [hv, hf, hn]), take_prefix hc]
  · have : data = (v ++ [d] ++ fp ++ num ++ chain) ++ (key ++ ck) := by simp [data, extBytes]
    rw [this, drop_prefix (by simp [hv, hf, hn, hc]), take_prefix hk]
  · have : data = (v ++ [d] ++ fp ++ num ++ chain ++ key) ++ ck := by simp [data, extBytes]
    rw [this, drop_prefix (by simp [hv, hf, hn, hc, hk])]
  · have : data = (v ++ [d] ++ fp ++ num ++ chain ++ key) ++ ck := by simp [data, extBytes]
    rw [this, take_prefix (by simp [hv, hf, hn, hc, hk])]

theorem ext_of_length {data : Bytes} (h : data.length = 82) :
    data = extBytes (data.take 4) (data.getD 4 0) ((data.drop 5).take 4) ((data.drop 9).take 4) ((data.drop 13).take 32)
      ((data.drop 45).take 33) (data.drop 78) := by
  have e : ∀ a b : ℕ, (data.drop a) = (data.drop a).take b ++ data.drop (a + b) := by
    intro a b
    rw [← List.drop_drop, List.take_append_drop]
  have e4 : data.drop 4 = data.getD 4 0 :: data.drop 5 := by
    rw [List.drop_eq_getElem_cons (by omega)]
    rw [List.getD_eq_getElem _ _ (by omega)]
  unfold extBytes
  conv_lhs => rw [← List.take_append_drop 4 data, e4, e 5 4, e 9 4, e 13 32, e 45 33]
  simp

/-! ### Paths -/

theorem split_ne (s : Bytes) : split s ≠ [] := by
  cases s with
  | nil => simp [split]
  | cons c s =>
    unfold split
    split
    · simp
    · split <;> simp

theorem split_spec (s : Bytes) : ∀ w ws, split s = w :: ws →
    s = w ++ ws.flatMap (fun w => 0x2f :: w) ∧ 0x2f ∉ w ∧ ∀ v ∈ ws, 0x2f ∉ v := by
  induction s with
  | nil =>
    intro w ws h
    unfold split at h
    injection h with h1 h2
    subst h1 h2
    simp
  | cons c s ih =>
    intro w ws h
    unfold split at h
    by_cases hc : c = 0x2f
    · rw [if_pos hc] at h
      injection h with h1 h2
      subst h1 hc
      cases hs : split s with
      | nil => exact absurd hs (split_ne s)
      | cons v vs =>
        obtain ⟨e1, e2, e3⟩ := ih v vs hs
        rw [hs] at h2
        subst h2
        refine ⟨by rw [List.nil_append, List.flatMap_cons, List.cons_append, ← e1], by simp, ?_⟩
        intro u hu
        rcases List.mem_cons.mp hu with rfl | hu
        · exact e2
        · exact e3 u hu
    · rw [if_neg hc] at h
      cases hs : split s with
      | nil => exact absurd hs (split_ne s)
      | cons v vs =>
        obtain ⟨e1, e2, e3⟩ := ih v vs hs
        rw [hs] at h
        dsimp only at h
        injection h with h1 h2
        subst h1 h2
        refine ⟨by rw [List.cons_append, ← e1], ?_, e3⟩
        intro hm
        rcases List.mem_cons.mp hm with h | h
        · exact hc h.symm
        · exact e2 h

theorem split_join (w : Bytes) (ws : List Bytes) (hw : 0x2f ∉ w) (hs : ∀ v ∈ ws, 0x2f ∉ v) :
    split (w ++ ws.flatMap (fun w => 0x2f :: w)) = w :: ws := by
  induction ws generalizing w with
  | nil =>
    induction w with
    | nil => rfl
    | cons c w ih =>
      have := ih (fun h => hw (List.mem_cons_of_mem _ h))
      rw [List.cons_append]
      unfold split
      rw [if_neg (fun (h : c = 0x2f) => hw (h ▸ List.mem_cons_self)), this]
  | cons v vs ihv =>
    induction w with
    | nil =>
      rw [List.nil_append, List.flatMap_cons, List.cons_append]
      unfold split
      rw [if_pos rfl, ihv v (hs v List.mem_cons_self) (fun u hu => hs u (List.mem_cons_of_mem _ hu))]
    | cons c w ih =>
      have := ih (fun h => hw (List.mem_cons_of_mem _ h))
      rw [List.cons_append]
      unfold split
      rw [if_neg (fun (h : c = 0x2f) => hw (h ▸ List.mem_cons_self)), this]

theorem digit_iff (c : UInt8) : (decide (0x30 ≤ c) && decide (c ≤ 0x39)) = true ↔
    ∃ d, d < 10 ∧ c = UInt8.ofNat (48 + d) := by
  revert c
  apply Base58.forall_uint8
  decide +kernel

theorem digits_of {w : Bytes} (h : w.all (fun c => 0x30 ≤ c && c ≤ 0x39) = true) :
    ∃ ds : List ℕ, (∀ d ∈ ds, d < 10) ∧ w = ds.map (fun d => UInt8.ofNat (48 + d)) := by
  induction w with
  | nil => exact ⟨[], by simp, rfl⟩
  | cons c w ih =>
    rw [List.all_cons, Bool.and_eq_true] at h
    obtain ⟨ds, h1, h2⟩ := ih h.2
    obtain ⟨d, hd, hc⟩ := (digit_iff c).mp h.1
    refine ⟨d :: ds, ?_, by rw [List.map_cons, ← h2, hc]⟩
    intro x hx
    rcases List.mem_cons.mp hx with rfl | hx
    · exact hd
    · exact h1 x hx

theorem all_digits {ds : List ℕ} (h : ∀ d ∈ ds, d < 10) :
    (ds.map (fun d => UInt8.ofNat (48 + d))).all (fun c => 0x30 ≤ c && c ≤ 0x39) = true := by
  rw [List.all_eq_true]
  intro c hc
  obtain ⟨d, hd, rfl⟩ := List.mem_map.mp hc
  exact (digit_iff _).mpr ⟨d, h d hd, rfl⟩

theorem digit_val : ∀ d, d < 10 → (UInt8.ofNat (48 + d)).toNat - 48 = d := by decide

theorem fold_digits {ds : List ℕ} (h : ∀ d ∈ ds, d < 10) (n : ℕ) :
    (ds.map (fun d => UInt8.ofNat (48 + d))).foldl (fun n c => n * 10 + (c.toNat - 48)) n =
      n * 10 ^ ds.length + Nat.ofDigits 10 ds.reverse := by
  induction ds generalizing n with
  | nil => simp
  | cons d ds ih =>
    rw [List.map_cons, List.foldl_cons, ih (fun x hx => h x (List.mem_cons_of_mem _ hx)), digit_val d (h d List.mem_cons_self),
      List.reverse_cons, Nat.ofDigits_append, List.length_cons, List.length_reverse, pow_succ]
    simp only [Nat.ofDigits_singleton]
    ring

theorem parse_iff (w : Bytes) (n : ℕ) : parseUint32 w = some n ↔ Decimal w n ∧ n < 2 ^ 32 := by
  unfold parseUint32
  constructor
  · intro h
    split at h
    · cases h
    rename_i hne
    split at h
    · rename_i hall
      obtain ⟨ds, h1, h2⟩ := digits_of hall
      dsimp only at h
      split at h
      · rename_i hlt
        have h := Option.some.inj h
        rw [← h]
        refine ⟨⟨hne, ds, h1, h2, ?_⟩, hlt⟩
        rw [h2, fold_digits h1]; simp
      · cases h
    · cases h
  · rintro ⟨⟨hne, ds, h1, h2, h3⟩, hlt⟩
    have hf : w.foldl (fun n c => n * 10 + (c.toNat - 48)) 0 = n := by
      rw [h2, fold_digits h1, h3]; simp
    rw [if_neg hne, if_pos (by rw [h2]; exact all_digits h1)]
    dsimp only
    rw [hf, if_pos hlt]

theorem decimal_last {w : Bytes} {n : ℕ} (h : Decimal w n) : ∃ c, w.getLast? = some c ∧ (c == 0x27) = false := by
  obtain ⟨hne, ds, h1, h2, _⟩ := h
  cases hl : w.getLast? with
  | none => rw [List.getLast?_eq_none_iff] at hl; exact absurd hl hne
  | some c =>
    refine ⟨c, rfl, ?_⟩
    have hm := List.mem_of_getLast? hl
    rw [h2] at hm
    obtain ⟨d, hd, rfl⟩ := List.mem_map.mp hm
    have := h1 d hd
    revert this
    generalize d = m
    intro hm
    have : ∀ m, m < 10 → (UInt8.ofNat (48 + m) == 0x27) = false := by decide
    exact this m hm

theorem decimal_no_slash {w : Bytes} {n : ℕ} (h : Decimal w n) : 0x2f ∉ w := by
  obtain ⟨_, ds, h1, h2, _⟩ := h
  rw [h2]
  intro hm
  obtain ⟨d, hd, he⟩ := List.mem_map.mp hm
  have : ∀ m, m < 10 → UInt8.ofNat (48 + m) ≠ 0x2f := by decide
  exact this d (h1 d hd) he

theorem component_no_slash {w : Bytes} {i : UInt32} (h : Component w i) : 0x2f ∉ w := by
  rcases h with ⟨n, h, _⟩ | ⟨u, n, rfl, h, _⟩
  · exact decimal_no_slash h
  · intro hm
    rcases List.mem_append.mp hm with hm | hm
    · exact decimal_no_slash h hm
    · revert hm; decide

/-- The step of a component is its index. -/
theorem stepIndex_of {w : Bytes} {i : UInt32} (h : Component w i) : stepIndex w = .ok i := by
  unfold stepIndex
  rcases h with ⟨n, h, hn, hi⟩ | ⟨u, n, rfl, h, hn, hi⟩
  · obtain ⟨c, hc, hq⟩ := decimal_last h
    rw [hc]
    dsimp only
    rw [hq, if_neg (by simp), (parse_iff w n).mpr ⟨h, hn⟩]
    dsimp only
    rw [if_neg (by simp), ← hi, UInt32.ofNat_toNat]
  · rw [List.getLast?_concat]
    dsimp only
    rw [if_pos (by decide), List.dropLast_concat, (parse_iff u n).mpr ⟨h, lt_trans hn (by decide)⟩]
    dsimp only
    rw [if_pos (by decide), ← hi, UInt32.ofNat_toNat]

/-- What the steps that are accepted look like. -/
theorem stepIndex_inv {w : Bytes} {i : UInt32} (h : stepIndex w = .ok i) :
    Component w i ∨ ∃ u n, w = u ++ [0x27] ∧ Decimal u n ∧ 2 ^ 31 ≤ n ∧ n < 2 ^ 32 ∧ i.toNat = n - 2 ^ 31 := by
  unfold stepIndex at h
  split at h
  · cases h
  rename_i c hl
  dsimp only at h
  split at h
  · cases h
  rename_i v hv
  have h := Res.ok.inj h
  by_cases hc : (c == 0x27) = true
  · rw [if_pos hc] at h hv
    obtain ⟨hd, hlt⟩ := (parse_iff _ v).mp hv
    have hw : w = w.dropLast ++ [0x27] := by
      rw [beq_iff_eq] at hc
      subst hc
      exact (List.dropLast_append_getLast? _ hl).symm
    by_cases hv31 : v < 2 ^ 31
    · refine Or.inl (Or.inr ⟨_, v, hw, hd, hv31, ?_⟩)
      rw [← h, UInt32.toNat_ofNat']
      exact Nat.mod_eq_of_lt (by omega)
    · refine Or.inr ⟨_, v, hw, hd, by omega, hlt, ?_⟩
      rw [← h, UInt32.toNat_ofNat']
      omega
  · rw [if_neg hc] at h hv
    obtain ⟨hd, hlt⟩ := (parse_iff _ v).mp hv
    refine Or.inl (Or.inl ⟨v, hd, hlt, ?_⟩)
    rw [← h, UInt32.toNat_ofNat']
    exact Nat.mod_eq_of_lt hlt

theorem stepIndex_panic {w : Bytes} (h : stepIndex w = .panic) : w = [] := by
  unfold stepIndex at h
  split at h
  · rename_i hl; exact List.getLast?_eq_none_iff.mp hl
  · dsimp only at h
    split at h <;> cases h

end Toku.HDKey
