import Verif.Proof.Address
/-
Properties C31 to C33: address texts.
-/
namespace Toku.Props
open Toku Toku.Spec Toku.Address

private theorem hrp_lower {net : Network} (hn : net = mainNet ∨ net = testNet) :
    1 ≤ net.bech32HRPSegwit.length ∧ (∀ c ∈ net.bech32HRPSegwit, LowerPrintable c) := by
  unfold LowerPrintable
  rcases hn with rfl | rfl <;> decide

private theorem base58_not_witness [Hashes] {net : Network} (hn : net = mainNet ∨ net = testNet) {s : Bytes}
    (h : s.head? ≠ some 0x62 ∧ s.head? ≠ some 0x74) : ¬ (s.idxOf? 0x31 = some 2 ∧ s.take 2 = net.bech32HRPSegwit) := by
  rintro ⟨_, h2⟩
  match s, h, h2 with
  | [], _, h2 => rcases hn with rfl | rfl <;> cases h2
  | c :: s, h, h2 =>
    rw [List.take_succ_cons] at h2
    rcases hn with rfl | rfl
    · have : c = 0x62 := (List.cons.inj h2).1
      exact h.1 (by rw [this]; rfl)
    · have : c = 0x74 := (List.cons.inj h2).1
      exact h.2 (by rw [this]; rfl)

private theorem witness_roundtrip [Hashes] {net : Network} (hn : net = mainNet ∨ net = testNet) {prog : Bytes}
    (hl : prog.length = 20 ∨ prog.length = 32) :
    decode (witnessText net.bech32HRPSegwit prog) net =
      .ok (if prog.length = 20 then ⟨.p2wpkh, prog⟩ else ⟨.p2wsh, prog⟩) := by
  obtain ⟨h1, h2⟩ := hrp_lower hn
  have h2l : net.bech32HRPSegwit.length = 2 := by rcases hn with rfl | rfl <;> rfl
  obtain ⟨s, es, ds⟩ := C11_witness_decode_encode net.bech32HRPSegwit 0 prog h1 h2 (by decide) (by omega)
  have hs : witnessText net.bech32HRPSegwit prog = s := by unfold witnessText; rw [es]
  have hform : ∃ body, s = net.bech32HRPSegwit ++ 0x31 :: body := by
    unfold Witness.encode at es
    rw [Res.bind_eq_ok] at es
    obtain ⟨d, _, es⟩ := es
    unfold Bech32.encode at es
    rw [Res.bind_eq_ok] at es
    obtain ⟨c, _, es⟩ := es
    refine ⟨c, ?_⟩
    have := (Res.ok.inj es).symm
    simpa using this
  obtain ⟨body, hb⟩ := hform
  have hidx : s.idxOf? 0x31 = some 2 := by
    rw [hb]
    rcases hn with rfl | rfl <;> rfl
  have htake : s.take 2 = net.bech32HRPSegwit := by rw [hb, ← h2l, List.take_left']; rfl
  rw [hs]
  unfold decode
  rw [if_pos ⟨hidx, htake⟩, ds, Res.ok_bind]
  simp only [if_true]
  rcases hl with hl | hl
  · rw [if_pos hl, if_pos hl]
  · rw [if_neg (by omega), if_pos hl, if_neg (by omega)]

/-- **C31.** Decoding the text of an address on its network returns the address. -/
theorem C31_roundtrip [Hashes] (net : Network) (hn : net = mainNet ∨ net = testNet) (k : Locking.Kind) (hash : Bytes)
    (hl : hash.length = hashSize k) : decode (text ⟨k, hash⟩ net) net = .ok ⟨k, hash⟩ := by
  cases k <;> simp only [hashSize] at hl
  · have hid : net.pubKeyHashAddrID = 0 ∨ net.pubKeyHashAddrID = 5 ∨ net.pubKeyHashAddrID = 0x6f ∨
        net.pubKeyHashAddrID = 0xc4 := by rcases hn with rfl | rfl <;> decide
    unfold text decode
    dsimp only
    rw [if_neg (base58_not_witness hn (check_head hl hid))]
    unfold decodeBase58
    rw [C06_check_decode_encode]
    dsimp only
    rw [if_pos hl, if_pos rfl]
  · have hid : net.scriptHashAddrID = 0 ∨ net.scriptHashAddrID = 5 ∨ net.scriptHashAddrID = 0x6f ∨
        net.scriptHashAddrID = 0xc4 := by rcases hn with rfl | rfl <;> decide
    have hne : net.scriptHashAddrID ≠ net.pubKeyHashAddrID := by rcases hn with rfl | rfl <;> decide
    unfold text decode
    dsimp only
    rw [if_neg (base58_not_witness hn (check_head hl hid))]
    unfold decodeBase58
    rw [C06_check_decode_encode]
    dsimp only
    rw [if_pos hl, if_neg hne, if_pos rfl]
  · have := witness_roundtrip hn (prog := hash) (Or.inl hl)
    rw [if_pos hl] at this
    exact this
  · have := witness_roundtrip hn (prog := hash) (Or.inr hl)
    rw [if_neg (by omega)] at this
    exact this

example : (List.replicate 20 (7 : UInt8)).length = hashSize .p2pkh ∧ (List.replicate 32 (7 : UInt8)).length = hashSize .p2wsh :=
  ⟨rfl, rfl⟩

private theorem base58_inv [Hashes] {s : Bytes} {net : Network} {a : Addr} (h : decodeBase58 s net = .ok a) :
    a.hash.length = 20 ∧ ((a.kind = .p2pkh ∧ Base58.checkDecode s = .ok (a.hash, net.pubKeyHashAddrID)) ∨
      (a.kind = .p2sh ∧ Base58.checkDecode s = .ok (a.hash, net.scriptHashAddrID))) := by
  unfold decodeBase58 at h
  cases hc : Base58.checkDecode s with
  | err e => rw [hc] at h; cases h
  | panic => rw [hc] at h; cases h
  | ok r =>
    obtain ⟨d, id⟩ := r
    rw [hc] at h
    dsimp only at h
    by_cases hl : d.length = 20
    · rw [if_pos hl] at h
      by_cases h1 : id = net.pubKeyHashAddrID
      · rw [if_pos h1] at h; cases h; subst h1
        exact ⟨hl, Or.inl ⟨rfl, rfl⟩⟩
      · rw [if_neg h1] at h
        by_cases h2 : id = net.scriptHashAddrID
        · rw [if_pos h2] at h; cases h; subst h2
          exact ⟨hl, Or.inr ⟨rfl, rfl⟩⟩
        · rw [if_neg h2] at h; cases h
    · rw [if_neg hl] at h; cases h

/-- everything an accepted text can be -/
private theorem decode_inv [Hashes] {s : Bytes} {net : Network} {a : Addr} (h : decode s net = .ok a) :
    (decodeBase58 s net = .ok a) ∨
    (s.idxOf? 0x31 = some 2 ∧ s.take 2 = net.bech32HRPSegwit ∧ ∃ hrp, Witness.decode s = .ok (hrp, 0, a.hash) ∧
      ((a.kind = .p2wpkh ∧ a.hash.length = 20) ∨ (a.kind = .p2wsh ∧ a.hash.length = 32))) := by
  unfold decode at h
  by_cases hc : s.idxOf? 0x31 = some 2 ∧ s.take 2 = net.bech32HRPSegwit
  · rw [if_pos hc, Res.bind_eq_ok] at h
    obtain ⟨⟨hrp, v, prog⟩, hw, h⟩ := h
    dsimp only at h
    by_cases hv : v = 0
    · subst hv
      rw [if_pos rfl] at h
      by_cases h20 : prog.length = 20
      · rw [if_pos h20] at h; cases h
        exact Or.inr ⟨hc.1, hc.2, hrp, hw, Or.inl ⟨rfl, h20⟩⟩
      · rw [if_neg h20] at h
        by_cases h32 : prog.length = 32
        · rw [if_pos h32] at h; cases h
          exact Or.inr ⟨hc.1, hc.2, hrp, hw, Or.inr ⟨rfl, h32⟩⟩
        · rw [if_neg h32] at h; exact Or.inl h
    · rw [if_neg hv] at h; cases h
  · rw [if_neg hc] at h; exact Or.inl h

/-- **C32 (partial).** Full statement: the text of a decoded address is exactly the accepted text.
Proved for Base58Check addresses and for witness texts with a single `'1'`; false for witness texts whose
human-readable part merely starts with the network's (`C32_prefix_confusion`). -/
theorem C32_canonical_partial [Hashes] (net : Network) (hn : net = mainNet ∨ net = testNet) (s : Bytes) (a : Addr)
    (h : decode s net = .ok a)
    (h1 : a.kind = .p2wpkh ∨ a.kind = .p2wsh → (0x31 : UInt8) ∉ s.drop 3) : text a net = s := by
  obtain ⟨k, hash⟩ := a
  rcases decode_inv h with h | ⟨hi, ht, hrp, hw, hk⟩
  · rcases (base58_inv h).2 with ⟨rfl, hc⟩ | ⟨rfl, hc⟩
    · exact (C06_check_encode_decode _ _ _ hc).symm
    · exact (C06_check_encode_decode _ _ _ hc).symm
  · obtain ⟨hlen, hsplit, _⟩ := idxOf_take hi
    have h1' : (0x31 : UInt8) ∉ s.drop 3 := h1 (hk.imp And.left And.left)
    obtain ⟨q, hb, _⟩ := witness_inv hw
    obtain ⟨_, _, _, hcase, _, h32, hlow⟩ := Bech32.decode_inv hb
    rw [ht] at hsplit
    have hls : Bech32.toLower s = s := by
      rcases hcase with e | e
      · exact e.symm
      · exfalso
        have := congrArg (List.take 2) e
        rw [ht, Bech32.toUpper, ← List.map_take, ht] at this
        rcases hn with rfl | rfl <;> exact absurd this (by decide)
    rw [hls, hsplit] at hlow
    have hck : ∀ b ∈ (0 :: q) ++ Bech32.checksum hrp (0 :: q), b.toNat < 32 := by
      intro b hb
      rcases List.mem_append.mp hb with hb | hb
      · exact h32 b hb
      · exact Bech32.checksum_lt _ _ b hb
    have hno : (0x31 : UInt8) ∉ Bech32.chars ((0 :: q) ++ Bech32.checksum hrp (0 :: q)) :=
      fun hm => absurd rfl (Bech32.mem_chars hck hm).1
    have i1 := Bech32.lastIndexByte_append (a := net.bech32HRPSegwit) h1'
    have i2 := Bech32.lastIndexByte_append (a := hrp) hno
    rw [hlow, i2] at i1
    have hl : hrp.length = net.bech32HRPSegwit.length := by simpa using i1
    have hhrp : hrp = net.bech32HRPSegwit := by
      have := List.append_inj hlow hl.symm
      exact this.1.symm
    have henc := C11_witness_encode_decode s hrp 0 _ hw
    rw [lowered_eq, hls, hhrp] at henc
    rcases hk with ⟨rfl, _⟩ | ⟨rfl, _⟩ <;> (unfold text witnessText; dsimp only; rw [henc])

/-- **C32 (partial).** Different texts of Base58Check addresses never decode to the same address. -/
theorem C32_base58_unique_partial [Hashes] (net : Network) (hn : net = mainNet ∨ net = testNet) (s t : Bytes) (a : Addr)
    (hs : decode s net = .ok a) (ht : decode t net = .ok a) (hk : a.kind = .p2pkh ∨ a.kind = .p2sh) : s = t := by
  have hx : ∀ s : Bytes, a.kind = .p2wpkh ∨ a.kind = .p2wsh → (0x31 : UInt8) ∉ s.drop 3 := by
    intro s h
    exfalso
    rcases hk with hk | hk <;> rw [hk] at h <;> simp at h
  rw [← C32_canonical_partial net hn s a hs (hx s), C32_canonical_partial net hn t a ht (hx t)]

/-- **C32, negation.** `bc1x1qqqq…pp3snm`, a Bech32 text for the human-readable part `bc1x`, is accepted as
a MainNet P2WPKH address; its own text is a different one. -/
theorem C32_prefix_confusion [Hashes] :
    let s := ascii ['b', 'c', '1', 'x', '1'] ++ List.replicate 33 0x71 ++ ascii ['p', 'p', '3', 's', 'n', 'm']
    decode s mainNet = .ok ⟨.p2wpkh, List.replicate 20 0⟩ ∧ text ⟨.p2wpkh, List.replicate 20 0⟩ mainNet ≠ s ∧
      decode (text ⟨.p2wpkh, List.replicate 20 0⟩ mainNet) mainNet = .ok ⟨.p2wpkh, List.replicate 20 0⟩ := by
  refine ⟨?_, ?_, C31_roundtrip mainNet (Or.inl rfl) .p2wpkh _ rfl⟩
  · unfold decode
    rw [if_pos (by decide +kernel)]
    have : Witness.decode (ascii ['b', 'c', '1', 'x', '1'] ++ List.replicate 33 0x71 ++ ascii ['p', 'p', '3', 's', 'n', 'm']) =
        .ok (ascii ['b', 'c', '1', 'x'], 0, List.replicate 20 0) := by decide +kernel
    rw [this, Res.ok_bind]
    rfl
  · change witnessText mainNet.bech32HRPSegwit (List.replicate 20 0) ≠ _
    decide +kernel

/-- **C32.** No text decodes on both networks. -/
theorem C32_network_bound [Hashes] (s : Bytes) (a b : Addr) (h1 : decode s mainNet = .ok a)
    (h2 : decode s testNet = .ok b) : False := by
  have wit58 : ∀ (net : Network) (hrp p : Bytes) (c : Addr), net = mainNet ∨ net = testNet →
      s.idxOf? 0x31 = some 2 → Witness.decode s = .ok (hrp, 0, p) →
      (p.length = 20 ∨ p.length = 32) → decodeBase58 s net = .ok c → False := by
    intro net hrp p c hn hi hw hp h58
    obtain ⟨hl, hc⟩ := base58_inv h58
    have hwl := witness_length hw
    obtain ⟨hlen, hsplit, hno⟩ := idxOf_take hi
    have hhead : ∃ c, s.head? = some c ∧ c ≠ 0x31 := by
      match s, hlen, hno with
      | x :: s, _, hno =>
        refine ⟨x, rfl, ?_⟩
        rintro rfl
        exact hno (by simp)
    obtain ⟨x, hx, hx1⟩ := hhead
    have : s.length ≤ 35 := by
      rcases hc with ⟨_, hc⟩ | ⟨_, hc⟩ <;> exact check_length hx hx1 hc hl
    omega
  rcases decode_inv h1 with h1 | ⟨hi, ht, hrp, hw, hk⟩
  · rcases decode_inv h2 with h2 | ⟨hi, ht, hrp, hw, hk⟩
    · rcases (base58_inv h1).2 with ⟨_, c1⟩ | ⟨_, c1⟩ <;> rcases (base58_inv h2).2 with ⟨_, c2⟩ | ⟨_, c2⟩ <;>
        (rw [c1] at c2; have := congrArg Prod.snd (Res.ok.inj c2); dsimp only at this; exact absurd this (by decide))
    · exact wit58 mainNet hrp b.hash a (Or.inl rfl) hi hw (by tauto) h1
  · rcases decode_inv h2 with h2 | ⟨hi', ht', hrp', hw', hk'⟩
    · exact wit58 testNet hrp a.hash b (Or.inr rfl) hi hw (by tauto) h2
    · rw [ht] at ht'; exact absurd ht' (by decide)

/-- **C33, negation.** The text `bc1gmk9yu` makes DecodeAddress panic on MainNet. -/
theorem C33_panics [Hashes] :
    decode (ascii ['b', 'c', '1', 'g', 'm', 'k', '9', 'y', 'u']) mainNet = .panic := by
  unfold decode
  rw [if_pos (by decide +kernel), C12_witness_decode_panics, Res.panic_bind]

private theorem checkDecode_np [Hashes] (s : Bytes) : Base58.checkDecode s ≠ .panic := by
  unfold Base58.checkDecode
  simp only
  split
  · intro h; cases h
  · split <;> (intro h; cases h)

private theorem decodeBase58_np [Hashes] (s : Bytes) (net : Network) : decodeBase58 s net ≠ .panic := by
  unfold decodeBase58
  have := checkDecode_np s
  cases hc : Base58.checkDecode s with
  | panic => exact absurd hc this
  | err e => intro h; cases h
  | ok r =>
    obtain ⟨d, id⟩ := r
    dsimp only
    split_ifs <;> (intro h; cases h)

/-- **C33 (partial).** Full statement: DecodeAddress never panics. Proved: it panics exactly on the texts
that start with the network's prefix and `'1'` and are valid Bech32 with an empty data part. -/
theorem C33_panic_iff_partial [Hashes] (net : Network) (s : Bytes) :
    decode s net = .panic ↔
      s.idxOf? 0x31 = some 2 ∧ s.take 2 = net.bech32HRPSegwit ∧ ∃ hrp, Bech32.decode s = .ok (hrp, []) := by
  unfold decode
  by_cases hc : s.idxOf? 0x31 = some 2 ∧ s.take 2 = net.bech32HRPSegwit
  · rw [if_pos hc, Res.bind_eq_panic, C12_witness_decode_panic_iff_partial]
    constructor
    · rintro (h | ⟨⟨hrp, v, prog⟩, _, h⟩)
      · exact ⟨hc.1, hc.2, h⟩
      · exfalso
        dsimp only at h
        split_ifs at h <;> first | cases h | exact decodeBase58_np _ _ h
    · rintro ⟨_, _, h⟩; exact Or.inl h
  · rw [if_neg hc]
    constructor
    · intro h; exact absurd h (decodeBase58_np _ _)
    · rintro ⟨a, b, _⟩; exact absurd ⟨a, b⟩ hc

end Toku.Props
