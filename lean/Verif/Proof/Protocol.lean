import Verif.Spec.Protocol
import Verif.Proof.Tx
/-
Lemmas about the messages of xprotocol.
-/
namespace Toku.Protocol
open Toku.Tx (readMany Reads readMany_enc)
open Toku.Buffer Toku.Spec

/-! ### Encode -/

theorem foldl_data {α : Type} (w : Buffer → α → Buffer) (enc : α → Bytes) (h : ∀ b x, (w b x).data = b.data ++ enc x) :
    ∀ (l : List α) (b : Buffer), (l.foldl w b).data = b.data ++ l.flatMap enc
  | [], b => by simp
  | x :: l, b => by rw [List.foldl_cons, foldl_data w enc h l, h, List.flatMap_cons, List.append_assoc]

theorem writeVarInt_new (v : UInt64) (b : Buffer) : (b.writeVarInt v).data = b.data ++ encVarInt v :=
  writeField_data b (.varInt v)

theorem writeVarString_data (v : Bytes) (b : Buffer) : (b.writeVarString v).data = b.data ++ encVarBytes v :=
  writeField_data b (.varString v)

def encInv (i : InvVect) : Bytes := le32 i.typ ++ i.hash

def encHeader (h : BlockHeader) : Bytes :=
  le32 h.version ++ (h.prevBlock ++ (h.merkleRoot ++ (le32 h.timestamp ++ (le32 h.bits ++ le32 h.nonce))))

theorem encodeInvs_eq (l : List InvVect) :
    encodeInvs l = encVarInt (UInt64.ofNat l.length) ++ l.flatMap encInv := by
  unfold encodeInvs
  rw [foldl_data writeInv encInv, writeVarInt_new]
  · rfl
  · intro b x
    simp [writeInv, encInv, writeU32, writeBytes]

theorem writeHeader_data (b : Buffer) (h : BlockHeader) : (writeHeader b h).data = b.data ++ encHeader h := by
  simp [writeHeader, encHeader, writeU32, writeBytes]

theorem encodeHeaders_eq (l : List BlockHeader) :
    encodeHeaders l = encVarInt (UInt64.ofNat l.length) ++ l.flatMap (fun h => encHeader h ++ [0]) := by
  unfold encodeHeaders
  rw [foldl_data _ (fun h => encHeader h ++ [0]), writeVarInt_new]
  · rfl
  · intro b x
    show (writeHeader b x).data ++ [0] = _
    rw [writeHeader_data, List.append_assoc]

theorem encodeGetHeaders_eq (v : UInt32) (l : List Bytes) (s : Bytes) :
    encodeGetHeaders v l s = le32 v ++ (encVarInt (UInt64.ofNat (filled l).length) ++ ((filled l).flatMap id ++ s)) := by
  unfold encodeGetHeaders
  show Buffer.data _ ++ s = _
  rw [foldl_data _ id, writeVarInt_new]
  · show ([] ++ le32 v ++ _ ++ _) ++ s = _
    simp
  · intro b x; rfl

theorem encodeVersion_eq (m : MsgVersion) : encodeVersion m =
    le32 m.version ++ (le64 m.services ++ (le64 m.timestamp ++ (le64 m.servicesYou ++ (m.addressYou ++ (le16 m.portYou ++
    (le64 m.servicesMe ++ (m.addressMe ++ (le16 m.portMe ++ (le64 m.nonce ++ (encVarBytes m.userAgent ++
    (le32 m.lastBlock ++ [m.relay]))))))))))) := by
  unfold encodeVersion
  simp only [writeU32, writeU64, writeBytes, writeU16, writeU8, writeVarString_data, Buffer.new]
  simp

theorem encodeReject_eq (m : MsgReject) : encodeReject m =
    encVarBytes m.cmd ++ (m.code :: (encVarBytes m.reason ++
      if m.cmd = cmdBlock ∨ m.cmd = cmdTx then m.hash else [])) := by
  unfold encodeReject
  dsimp only
  by_cases h : m.cmd = cmdBlock ∨ m.cmd = cmdTx
  · rw [if_pos h, if_pos h]
    simp only [writeBytes, writeVarString_data, writeU8, Buffer.new]
    simp
  · rw [if_neg h, if_neg h]
    simp only [writeVarString_data, writeU8, Buffer.new]
    simp

/-! ### Decode of an encoding -/

theorem reads_inv : Reads readInv encInv id (fun i => i.hash.length = 32) := by
  intro x hx b t h
  unfold encInv at h
  rw [List.append_assoc] at h
  obtain ⟨b1, e1, r1, _⟩ := readU32_le h
  obtain ⟨b2, e2, r2, _⟩ := readBytes_ok r1
  rw [hx] at e2
  refine ⟨b2, ?_, r2⟩
  unfold readInv
  rw [e1, Res.ok_bind]
  dsimp only
  erw [e2]
  rfl

theorem reads_header : Reads readHeader (fun h => encHeader h ++ [0]) id
    (fun h => h.prevBlock.length = 32 ∧ h.merkleRoot.length = 32) := by
  intro x hx b t h
  unfold encHeader at h
  simp only [List.append_assoc] at h
  obtain ⟨b1, e1, r1, _⟩ := readU32_le h
  obtain ⟨b2, e2, r2, _⟩ := readBytes_ok r1
  obtain ⟨b3, e3, r3, _⟩ := readBytes_ok r2
  obtain ⟨b4, e4, r4, _⟩ := readU32_le r3
  obtain ⟨b5, e5, r5, _⟩ := readU32_le r4
  obtain ⟨b6, e6, r6, _⟩ := readU32_le r5
  obtain ⟨b7, e7, r7, _⟩ := readU8_ok r6
  rw [hx.1] at e2
  rw [hx.2] at e3
  refine ⟨b7, ?_, r7⟩
  unfold readHeader
  rw [e1, Res.ok_bind]
  dsimp only
  erw [e2, Res.ok_bind]
  dsimp only
  erw [e3, Res.ok_bind]
  dsimp only
  rw [e4, Res.ok_bind]
  dsimp only
  rw [e5, Res.ok_bind]
  dsimp only
  rw [e6, Res.ok_bind]
  dsimp only
  rw [e7, Res.ok_bind]
  rfl

theorem reads_hash : Reads (fun b => b.readBytes 32) id id (fun h : Bytes => h.length = 32) := by
  intro x hx b t h
  obtain ⟨b2, e2, r2, _⟩ := readBytes_ok (x := x) h
  rw [hx] at e2
  exact ⟨b2, e2, r2⟩

theorem decodeInvs_enc (old l : List InvVect) (hl : l.length ≤ 50000) (ho : ∀ i ∈ l, i.hash.length = 32) (rest : Bytes)
    (hs : (encodeInvs l ++ rest).length < 2^62) : decodeInvs old (encodeInvs l ++ rest) = .ok (old ++ l) := by
  have h := rd_reader _ hs
  rw [encodeInvs_eq, List.append_assoc] at h
  obtain ⟨b1, e1, r1, _⟩ := readVarInt_enc h
  obtain ⟨b2, e2, r2⟩ := readMany_enc reads_inv l ho b1 _ r1
  unfold decodeInvs
  rw [encodeInvs_eq, List.append_assoc, e1, Res.ok_bind]
  dsimp only
  have hn : (UInt64.ofNat l.length).toNat = l.length := by rw [UInt64.toNat_ofNat']; omega
  rw [if_neg (by rw [hn]; unfold maxInvPerMsg; omega), intOfU64_ofNat (by omega), Int.toNat_natCast, e2, Res.ok_bind]
  simp

theorem decodeHeaders_enc (old l : List BlockHeader)
    (ho : ∀ h ∈ l, h.prevBlock.length = 32 ∧ h.merkleRoot.length = 32) (rest : Bytes)
    (hs : (encodeHeaders l ++ rest).length < 2^62) : decodeHeaders old (encodeHeaders l ++ rest) = .ok (old ++ l) := by
  have h := rd_reader _ hs
  rw [encodeHeaders_eq, List.append_assoc] at h
  have hl : l.length < 2^62 := by
    rw [encodeHeaders_eq] at hs
    have := Tx.length_flatMap_ge (fun h => encHeader h ++ [0]) 1 l (by intro x _; simp)
    simp only [List.length_append] at hs
    omega
  obtain ⟨b1, e1, r1, _⟩ := readVarInt_enc h
  obtain ⟨b2, e2, r2⟩ := readMany_enc reads_header l ho b1 _ r1
  unfold decodeHeaders
  rw [encodeHeaders_eq, List.append_assoc, e1, Res.ok_bind]
  dsimp only
  rw [intOfU64_ofNat (by omega), Int.toNat_natCast, e2, Res.ok_bind]
  simp

theorem decodeGetHeaders_enc (old : List Bytes) (z : Bytes) (v : UInt32) (l : List Bytes) (s : Bytes)
    (ho : ∀ h ∈ filled l, h.length = 32) (hs : (encodeGetHeaders v l s).length < 2^62) :
    decodeGetHeaders old z (encodeGetHeaders v l s) = .ok (.getheaders v (old ++ filled l) z) := by
  have h := rd_reader _ hs
  rw [encodeGetHeaders_eq] at h hs ⊢
  have hl : (filled l).length < 2^62 := by
    have := Tx.length_flatMap_ge (id : Bytes → Bytes) 1 (filled l) (by intro x hx; have := ho x hx; simp; omega)
    simp only [List.length_append] at hs
    omega
  obtain ⟨b0, e0, r0, _⟩ := readU32_le h
  obtain ⟨b1, e1, r1, _⟩ := readVarInt_enc r0
  obtain ⟨b2, e2, r2⟩ := readMany_enc reads_hash (filled l) ho b1 _ r1
  unfold decodeGetHeaders
  rw [e0, Res.ok_bind]
  dsimp only
  rw [e1, Res.ok_bind]
  dsimp only
  rw [intOfU64_ofNat (by omega), Int.toNat_natCast, e2, Res.ok_bind]
  simp

/-- A port after a trip over the wire. -/
def port16 (v : UInt32) : UInt32 := v &&& 0xffff

theorem port16_small {v : UInt32} (h : v.toNat < 65536) : port16 v = v := by
  unfold port16
  rw [and_ffff, Nat.mod_eq_of_lt h, UInt32.ofNat_toNat]

theorem decodeVersion_enc (m : MsgVersion) (h1 : m.addressYou.length = 16) (h2 : m.addressMe.length = 16)
    (rest : Bytes) (hs : (encodeVersion m ++ rest).length < 2^62) :
    decodeVersion (encodeVersion m ++ rest) =
      .ok { m with portYou := port16 m.portYou, portMe := port16 m.portMe } := by
  have h := rd_reader _ hs
  rw [encodeVersion_eq] at h ⊢
  simp only [List.append_assoc] at h ⊢
  obtain ⟨b1, e1, r1, _⟩ := readU32_le h
  obtain ⟨b2, e2, r2, _⟩ := readU64_le r1
  obtain ⟨b3, e3, r3, _⟩ := readU64_le r2
  obtain ⟨b4, e4, r4, _⟩ := readU64_le r3
  obtain ⟨b5, e5, r5, _⟩ := readBytes_ok r4
  obtain ⟨b6, e6, r6, _⟩ := readU16_le r5
  obtain ⟨b7, e7, r7, _⟩ := readU64_le r6
  obtain ⟨b8, e8, r8, _⟩ := readBytes_ok r7
  obtain ⟨b9, e9, r9, _⟩ := readU16_le r8
  obtain ⟨b10, e10, r10, _⟩ := readU64_le r9
  obtain ⟨b11, e11, r11, _⟩ := readVarBytes_enc r10
  obtain ⟨b12, e12, r12, _⟩ := readU32_le r11
  obtain ⟨b13, e13, r13, _⟩ := readU8_ok r12
  rw [h1] at e5
  rw [h2] at e8
  have e5' : b4.readBytes 16 = .ok (m.addressYou, b5) := e5
  have e8' : b7.readBytes 16 = .ok (m.addressMe, b8) := e8
  unfold decodeVersion
  simp only [e1, Res.ok_bind, e2, e3, e4, e5', e6, e7, e8', e9, e10, readVarString, e11, e12, e13, Res.pure_eq, port16]

theorem decodeReject_enc (old : MsgReject) (m : MsgReject)
    (hh : (m.cmd = cmdBlock ∨ m.cmd = cmdTx) → m.hash.length = 32) (rest : Bytes)
    (hs : (encodeReject m ++ rest).length < 2^62) :
    decodeReject old (encodeReject m ++ rest) =
      .ok { m with hash := if m.cmd = cmdBlock ∨ m.cmd = cmdTx then m.hash else old.hash } := by
  have h := rd_reader _ hs
  rw [encodeReject_eq] at h ⊢
  simp only [List.append_assoc, List.cons_append] at h ⊢
  obtain ⟨b1, e1, r1, _⟩ := readVarBytes_enc h
  obtain ⟨b2, e2, r2, _⟩ := readU8_ok r1
  obtain ⟨b3, e3, r3, _⟩ := readVarBytes_enc r2
  unfold decodeReject
  simp only [readVarString, e1, Res.ok_bind, e2, e3]
  unfold readRejectHash
  by_cases hc : m.cmd = cmdBlock ∨ m.cmd = cmdTx
  · rw [if_pos hc, if_pos hc]
    rw [if_pos hc] at r3
    obtain ⟨b4, e4, r4, _⟩ := readBytes_ok r3
    rw [hh hc] at e4
    erw [e4]
    rfl
  · rw [if_neg hc, if_neg hc]
    rfl

theorem decodeNonce_enc (n : UInt64) (rest : Bytes) (hs : (le64 n ++ rest).length < 2^62) :
    decodeNonce (le64 n ++ rest) = .ok n := by
  obtain ⟨b1, e1, r1, _⟩ := readU64_le (rd_reader _ hs)
  unfold decodeNonce
  rw [e1]
  rfl

end Toku.Protocol
