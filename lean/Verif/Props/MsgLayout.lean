import Verif.Props.Protocol
/-
Properties C91 to C93: layout and size of messages, block hashes.
-/
namespace Toku.Props
open Toku.Protocol Toku.Spec Toku.Buffer

/-! ### C91 -/

/-- A port number, least significant byte first. -/
def lePort (p : Nat) : Bytes := le 2 p

theorem le16_lePort (v : UInt32) : le16 v = lePort v.toNat := by
  apply leNat_inj (by rw [lePort, Wire.le_length]; rfl)
  rw [leNat_le16, lePort, Wire.leNat_le]

theorem flatMap_inv (l : List InvVect) : l.flatMap encInv = l.flatMap wireInv := by
  apply congrArg (fun f => List.flatMap f l)
  funext i
  simp only [encInv, wireInv, Wire.le4]

theorem encHeader_eq (h : BlockHeader) : encHeader h = wireHeader h := by
  simp only [encHeader, wireHeader, Wire.le4, List.append_assoc]

/-- The lists and strings of a message can exist in memory. -/
def InMemory : Msg → Prop
  | .version m => m.userAgent.length < 2^62
  | .inv l => l.length < 2^62
  | .getdata l => l.length < 2^62
  | .getheaders _ l _ => l.length < 2^62
  | .headers l => l.length < 2^62
  | .reject r => r.cmd.length < 2^62 ∧ r.reason.length < 2^62
  | _ => True

/-- **C91, for every message.** The payload is laid out as the protocol says except that ports are written least significant
byte first and that a `getheaders` without locators is sent with one of zeros. -/
theorem C91_layout (m : Msg) (hm : InMemory m) : encode m = payloadWith lePort (match m with
      | .getheaders v l s => .getheaders v (if l = [] then [List.replicate 32 0] else l) s
      | m => m) := by
  have cs : ∀ n, n < 2^62 → encVarInt (UInt64.ofNat n) = compactSize n := fun n h => (Wire.compactSize_eq (by omega)).symm
  have vs : ∀ b : Bytes, b.length < 2^62 → encVarBytes b = varStr b := fun b h => (Wire.varStr_eq (by omega)).symm
  cases m with
  | version v =>
    simp only [encode, payloadWith, wireVersion, encodeVersion_eq, vs _ hm, le16_lePort, Wire.le4, Wire.le8,
      List.append_assoc]
  | verack => rfl
  | inv l => simp only [encode, payloadWith, counted, encodeInvs_eq, cs _ hm, flatMap_inv]
  | getdata l => simp only [encode, payloadWith, counted, encodeInvs_eq, cs _ hm, flatMap_inv]
  | getheaders v l s =>
    have : (if l = [] then [List.replicate 32 0] else l).length < 2^62 := by
      split
      · simp
      · exact hm
    simp only [encode, payloadWith, counted, encodeGetHeaders_eq, cs _ this, Wire.le4, filled_eq, List.append_assoc]
  | headers l =>
    simp only [encode, payloadWith, counted, encodeHeaders_eq, cs _ hm, encHeader_eq]
  | ping n => rw [encode_ping, List.append_nil]; exact (Wire.le8 n).symm
  | pong n => rw [encode_pong, List.append_nil]; exact (Wire.le8 n).symm
  | reject r =>
    simp only [encode, payloadWith, encodeReject_eq, vs _ hm.1, vs _ hm.2, List.append_assoc, List.cons_append,
      List.nil_append]
    rfl
  | tx d => rfl
  | unhandle c => rfl

/-- **C91, partial.** Every message but `version` (and a `getheaders` without locators) is laid out as the protocol says. -/
theorem C91_layout_partial (m : Msg) (hm : InMemory m) (hv : ∀ v, m ≠ .version v) (hg : ∀ v s, m ≠ .getheaders v [] s) :
    encode m = payload m := by
  rw [C91_layout m hm]
  cases m with
  | version v => exact absurd rfl (hv v)
  | getheaders v l s =>
    have : l ≠ [] := by rintro rfl; exact hg v s rfl
    simp only [if_neg this]
    rfl
  | _ => rfl

theorem port_eq_iff (p : UInt32) : lePort p.toNat = bePort p.toNat ↔ p.toNat % 256 = p.toNat / 256 % 256 := by
  simp only [lePort, le, bePort, List.cons.injEq, and_true]
  constructor
  · rintro ⟨h, _⟩
    have := congrArg UInt8.toNat h
    simpa [UInt8.toNat_ofNat'] using this
  · intro h
    refine ⟨?_, ?_⟩
    · rw [h]
    · rw [h]

/-- **C91, exact for `version`.** The layout is right only for ports whose two bytes are the same. -/
theorem C91_version_iff (v : MsgVersion) (hu : v.userAgent.length < 2^62) : encode (.version v) = payload (.version v) ↔
    v.portYou.toNat % 256 = v.portYou.toNat / 256 % 256 ∧ v.portMe.toNat % 256 = v.portMe.toNat / 256 % 256 := by
  rw [C91_layout (.version v) hu, ← port_eq_iff, ← port_eq_iff]
  simp only [payload, payloadWith, wireVersion]
  constructor
  · intro h
    simp only [List.append_assoc] at h
    have h := List.append_cancel_left (List.append_cancel_left (List.append_cancel_left (List.append_cancel_left
      (List.append_cancel_left h))))
    obtain ⟨h1, h⟩ := List.append_inj h (by simp [lePort, bePort, Wire.le_length])
    have h := List.append_cancel_left (List.append_cancel_left h)
    obtain ⟨h2, _⟩ := List.append_inj h (by simp [lePort, bePort, Wire.le_length])
    exact ⟨h1, h2⟩
  · rintro ⟨h1, h2⟩
    rw [h1, h2]

/-- The 16 bytes of the address ::ffff:127.0.0.1. -/
def loopback : Bytes := [0, 0, 0, 0, 0, 0, 0, 0, 0, 0, 0xff, 0xff, 127, 0, 0, 1]

/-- **C91, negation.** The version message that the library makes for the main network has its port in the wrong byte order
and, as address, the sixteen characters of the text instead of the sixteen bytes. -/
theorem C91_negation (userAgent : Bytes) (hu : userAgent.length < 2^62) (now : UInt64) :
    Fits (.version (newMsgVersion 70015 8333 userAgent now)) ∧
    encode (.version (newMsgVersion 70015 8333 userAgent now)) ≠ payload (.version (newMsgVersion 70015 8333 userAgent now)) ∧
    (newMsgVersion 70015 8333 userAgent now).addressMe ≠ loopback := by
  have hp : (8333 : UInt32).toNat < 65536 := by decide
  refine ⟨⟨rfl, rfl, hp, hp⟩, ?_, by show ip ≠ loopback; decide⟩
  rw [Ne, C91_version_iff _ hu]
  show ¬ ((8333 : UInt32).toNat % 256 = (8333 : UInt32).toNat / 256 % 256 ∧ _)
  rintro ⟨h, _⟩
  revert h
  decide

/-! ### C92 -/

theorem foldl_add {α : Type} (f : α → Nat) : ∀ (l : List α) (a : Nat),
    l.foldl (fun s x => s + f x) a = a + (l.map f).sum
  | [], a => by simp
  | x :: l, a => by rw [List.foldl_cons, foldl_add f l, List.map_cons, List.sum_cons, Nat.add_assoc]

theorem encVarInt_len (n : Nat) : (encVarInt (UInt64.ofNat n)).length = varIntSerializeSize (UInt64.ofNat n) :=
  encVarInt_length _

theorem varInt_size_pos (v : UInt64) : 1 ≤ varIntSerializeSize v := by
  unfold varIntSerializeSize
  repeat' split
  all_goals omega

/-- **C92.** For messages of every type but `verack`, `reject` and unknown ones, the reported size is the length of the
encoding; for `getheaders` provided it has a locator. -/
theorem C92_size_partial (m : Msg) (hv : m ≠ .verack) (hr : ∀ r, m ≠ .reject r) (hu : ∀ c, m ≠ .unhandle c)
    (hg : ∀ v s, m ≠ .getheaders v [] s) :
    size m = (encode m).length := by
  cases m with
  | verack => exact absurd rfl hv
  | reject r => exact absurd rfl (hr r)
  | unhandle c => exact absurd rfl (hu c)
  | version v =>
    simp only [size, encode, encodeVersion_eq, List.length_append, le32_length, le64_length, le16_length, encVarBytes,
      encVarInt_length, List.length_cons, List.length_nil]
    omega
  | inv l =>
    simp only [size, encode, encodeInvs_eq, List.length_append, encVarInt_length, List.length_flatMap, foldl_add]
    congr 2
    apply List.map_congr_left
    intro i _
    simp only [invSize, encInv, List.length_append, le32_length]
  | getdata l =>
    simp only [size, encode, encodeInvs_eq, List.length_append, encVarInt_length, List.length_flatMap, foldl_add]
    congr 2
    apply List.map_congr_left
    intro i _
    simp only [invSize, encInv, List.length_append, le32_length]
  | getheaders v l s =>
    have : l ≠ [] := by rintro rfl; exact hg v s rfl
    simp only [size, encode, encodeGetHeaders_eq, filled_eq, if_neg this, List.length_append, encVarInt_length,
      List.length_flatMap, foldl_add, le32_length, id]
    have : (l.map fun a => a.length) = l.map List.length := rfl
    rw [← this]
    omega
  | headers l =>
    simp only [size, encode, encodeHeaders_eq, List.length_append, encVarInt_length, List.length_flatMap, foldl_add]
    congr 2
    apply List.map_congr_left
    intro h _
    simp only [headerSize, encHeader, List.length_append, le32_length, List.length_cons, List.length_nil]
    omega
  | ping n => rfl
  | pong n => rfl
  | tx d => rfl

/-- **C92, negation.** A `verack` has no payload and reports six bytes; a message of unknown type reports the length of its
command; a `reject` always reports too little; a `getheaders` without locators reports 32 bytes too little. -/
theorem C92_negation :
    (size .verack = 6 ∧ (encode .verack).length = 0) ∧
    (∀ c, size (.unhandle c) = c.length ∧ (encode (.unhandle c)).length = 0) ∧
    (∀ r, Fits (.reject r) → size (.reject r) < (encode (.reject r)).length) ∧
    (∀ v s, size (.getheaders v [] s) + 32 = (encode (.getheaders v [] s)).length) := by
  refine ⟨⟨rfl, rfl⟩, fun c => ⟨rfl, rfl⟩, fun r hf => ?_, fun v s => ?_⟩
  · have hf' : if r.cmd = cmdBlock ∨ r.cmd = cmdTx then r.hash.length = 32 else r.hash = [] := hf
    have h1 := varInt_size_pos (UInt64.ofNat r.cmd.length)
    have h2 := varInt_size_pos (UInt64.ofNat r.reason.length)
    simp only [size, encode, encodeReject_eq, encVarBytes, List.length_append, List.length_cons, encVarInt_length]
    split at hf'
    · rename_i h
      rw [if_pos h]
      omega
    · rename_i h
      rw [if_neg h, hf']
      simp only [List.length_nil]
      omega
  · simp only [size, encode, encodeGetHeaders_eq, filled_eq, if_true, List.length_append, encVarInt_length,
      List.length_flatMap, le32_length, List.foldl_nil, List.length_nil, List.length_cons, List.map_cons, List.map_nil,
      List.sum_cons, List.sum_nil, id, List.length_replicate]
    have : varIntSerializeSize (UInt64.ofNat (0 + 1)) = varIntSerializeSize (UInt64.ofNat 0) := rfl
    omega

example : size (.inv [⟨1, List.replicate 32 5⟩]) = 37 := by decide +kernel

/-! ### C93 -/

theorem wireHeader_length (h : BlockHeader) (h1 : h.prevBlock.length = 32) (h2 : h.merkleRoot.length = 32) :
    (wireHeader h).length = 80 := by
  simp only [wireHeader, List.length_append, Wire.le_length, h1, h2]

/-- **C93.** The hash of a block header is the double SHA-256 of its 80 bytes: the bytes that stand for it in a `headers`
message, before the count of transactions. -/
theorem C93_blockHash [Hashes] (h : BlockHeader) :
    blockHash h = Hashes.sha256 (Hashes.sha256 (wireHeader h)) ∧
    encode (.headers [h]) = [1] ++ wireHeader h ++ [0] ∧
    (h.prevBlock.length = 32 → h.merkleRoot.length = 32 → (wireHeader h).length = 80) := by
  refine ⟨?_, ?_, wireHeader_length h⟩
  · unfold blockHash sha256d
    rw [writeHeader_data, encHeader_eq]
    rfl
  · rw [C91_layout_partial (.headers [h]) (by simp [InMemory]) (by simp) (by simp)]
    simp [payload, payloadWith, counted, compactSize]

/-- **C93, identity.** Two headers with the same hash are the same, or one of the two applications of SHA-256 shows a
collision. -/
theorem C93_identity [Hashes] (a b : BlockHeader) (ha : a.prevBlock.length = 32 ∧ a.merkleRoot.length = 32)
    (hb : b.prevBlock.length = 32 ∧ b.merkleRoot.length = 32) (h : blockHash a = blockHash b) :
    a = b ∨
    (wireHeader a ≠ wireHeader b ∧ Hashes.sha256 (wireHeader a) = Hashes.sha256 (wireHeader b)) ∨
    (Hashes.sha256 (wireHeader a) ≠ Hashes.sha256 (wireHeader b) ∧
      Hashes.sha256 (Hashes.sha256 (wireHeader a)) = Hashes.sha256 (Hashes.sha256 (wireHeader b))) := by
  rw [(C93_blockHash a).1, (C93_blockHash b).1] at h
  by_cases h1 : Hashes.sha256 (wireHeader a) = Hashes.sha256 (wireHeader b)
  · by_cases h2 : wireHeader a = wireHeader b
    · left
      simp only [wireHeader, List.append_assoc, Wire.le4] at h2
      obtain ⟨e1, h2⟩ := List.append_inj h2 rfl
      obtain ⟨e2, h2⟩ := List.append_inj h2 (by rw [ha.1, hb.1])
      obtain ⟨e3, h2⟩ := List.append_inj h2 (by rw [ha.2, hb.2])
      obtain ⟨e4, h2⟩ := List.append_inj h2 rfl
      obtain ⟨e5, e6⟩ := List.append_inj h2 rfl
      cases a
      cases b
      simp only at *
      rw [le32_inj e1, e2, e3, le32_inj e4, le32_inj e5, le32_inj e6]
    · exact .inr (.inl ⟨h2, h1⟩)
  · exact .inr (.inr ⟨h1, h⟩)

end Toku.Props
