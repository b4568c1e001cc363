import Verif.Proof.Frame
/-
Properties C75 to C79, C82 and C91 to C93: messages, frames and the read loop of xprotocol.
-/
namespace Toku.Props
open Toku.Protocol Toku.Spec Toku.Buffer

/-! ### C75 -/

theorem filled_eq (l : List Bytes) : filled l = if l = [] then [List.replicate 32 0] else l := by
  unfold filled
  cases l <;> simp

theorem encode_ping (n : UInt64) : encode (.ping n) = le64 n ++ [] := by
  simp [encode, writeU64, Buffer.new]

theorem encode_pong (n : UInt64) : encode (.pong n) = le64 n ++ [] := by
  simp [encode, writeU64, Buffer.new]

/-- **C75, for every message.** Decoding the encoding of any message whose fields are in range gives the message back,
except that a `getheaders` comes back without its stopping point and with a locator of zeros if it had none. -/
theorem C75_roundtrip (m : Msg) (hf : Fits m) (hs : (encode m).length < 2^62) :
    decode (blank m) (encode m) = .ok (match m with
      | .getheaders v l _ => .getheaders v (if l = [] then [List.replicate 32 0] else l) (List.replicate 32 0)
      | m => m) := by
  cases m with
  | version v =>
    have := decodeVersion_enc v hf.1 hf.2.1 [] (by simpa [encode] using hs)
    rw [List.append_nil, port16_small hf.2.2.1, port16_small hf.2.2.2] at this
    simp only [decode, blank, encode, this, Res.ok_bind, Res.pure_eq]
  | verack => rfl
  | inv l =>
    have := decodeInvs_enc [] l hf.1 hf.2 [] (by simpa [encode] using hs)
    rw [List.append_nil, List.nil_append] at this
    simp only [decode, blank, encode, this, Res.ok_bind, Res.pure_eq]
  | getdata l =>
    have := decodeInvs_enc [] l hf.1 hf.2 [] (by simpa [encode] using hs)
    rw [List.append_nil, List.nil_append] at this
    simp only [decode, blank, encode, this, Res.ok_bind, Res.pure_eq]
  | getheaders v l s =>
    have := decodeGetHeaders_enc [] (List.replicate 32 0) v l s (by
      intro h hh
      rw [filled_eq] at hh
      split at hh
      · simp only [List.mem_singleton] at hh; rw [hh]; rfl
      · exact hf.1 h hh) hs
    simp only [decode, blank, encode, this, List.nil_append, filled_eq]
  | headers l =>
    have := decodeHeaders_enc [] l hf [] (by simpa [encode] using hs)
    rw [List.append_nil, List.nil_append] at this
    simp only [decode, blank, encode, this, Res.ok_bind, Res.pure_eq]
  | ping n =>
    rw [encode_ping] at hs ⊢
    simp only [decode, blank, decodeNonce_enc n [] hs, Res.ok_bind, Res.pure_eq]
  | pong n =>
    rw [encode_pong] at hs ⊢
    simp only [decode, blank, decodeNonce_enc n [] hs, Res.ok_bind, Res.pure_eq]
  | reject r =>
    have hf' : if r.cmd = cmdBlock ∨ r.cmd = cmdTx then r.hash.length = 32 else r.hash = [] := hf
    have := decodeReject_enc ⟨[], 0, [], []⟩ r (by intro h; rwa [if_pos h] at hf') [] (by simpa [encode] using hs)
    rw [List.append_nil] at this
    simp only [decode, blank, encode, this, Res.ok_bind, Res.pure_eq]
    split
    · rfl
    · rename_i h
      rw [if_neg h] at hf'
      rw [← hf']
  | tx d => rfl
  | unhandle c => rfl

/-- **C75, partial.** Every message in range comes back unchanged, provided a `getheaders` names a locator and no
stopping point. -/
theorem C75_roundtrip_partial (m : Msg) (hf : Fits m) (hk : NoStop m) (hs : (encode m).length < 2^62) :
    decode (blank m) (encode m) = .ok m := by
  rw [C75_roundtrip m hf hs]
  cases m with
  | getheaders v l s =>
    obtain ⟨h1, h2⟩ := hk
    simp only [if_neg h1, h2]
  | _ => rfl

/-- **C75, exact.** The condition is needed: exactly the other messages come back changed. -/
theorem C75_roundtrip_iff (m : Msg) (hf : Fits m) (hs : (encode m).length < 2^62) :
    decode (blank m) (encode m) = .ok m ↔ NoStop m := by
  refine ⟨fun h => ?_, fun h => C75_roundtrip_partial m hf h hs⟩
  rw [C75_roundtrip m hf hs] at h
  cases m with
  | getheaders v l s =>
    simp only [Res.ok.injEq, Msg.getheaders.injEq, true_and] at h
    refine ⟨?_, h.2.symm⟩
    rintro rfl
    simp at h
  | _ => trivial

/-- **C75, negation.** A `getheaders` asking for headers up to a given block loses that block. -/
theorem C75_negation : ∃ m, Fits m ∧ (encode m).length < 2^62 ∧ decode (blank m) (encode m) ≠ .ok m := by
  refine ⟨.getheaders 70015 [List.replicate 32 1] (List.replicate 32 7), ⟨by simp, by rfl⟩, by decide +kernel, ?_⟩
  decide +kernel

/-- **C75, decoding into a used message.** Decoding appends to what an `inv` already held. -/
theorem C75_appends (old l : List InvVect) (hf : Fits (.inv l)) (hs : (encode (.inv l)).length < 2^62) :
    decode (.inv old) (encode (.inv l)) = .ok (.inv (old ++ l)) := by
  have := decodeInvs_enc old l hf.1 hf.2 [] (by simpa [encode] using hs)
  rw [List.append_nil] at this
  simp only [decode, encode, this, Res.ok_bind, Res.pure_eq]

example : Fits (.inv [⟨1, List.replicate 32 5⟩]) ∧ NoStop (.inv [⟨1, List.replicate 32 5⟩]) ∧
    (encode (.inv [⟨1, List.replicate 32 5⟩])).length < 2^62 := ⟨⟨by simp, by simp⟩, trivial, by decide +kernel⟩

/-! ### C76 -/

theorem makeEmpty_blank (m : Msg) (hs : ∀ c, m = .unhandle c → c ∉ knownCommands) :
    makeEmptyMessage (command m) = match m with
      | .ping _ => .unhandle cmdPing
      | .pong _ => .unhandle cmdPong
      | m => blank m := by
  cases m with
  | unhandle c =>
    have h := hs c rfl
    simp only [knownCommands, List.mem_cons, List.not_mem_nil, or_false, not_or] at h
    obtain ⟨h1, h2, h3, h4, h5, h6, h7, h8⟩ := h
    show makeEmptyMessage c = .unhandle c
    unfold makeEmptyMessage cmdVersion cmdVerAck cmdInv cmdGetData cmdGetHeaders cmdTx cmdHeaders cmdReject
    rw [if_neg h1, if_neg h2, if_neg h3, if_neg h4, if_neg h5, if_neg h6, if_neg h7, if_neg h8]
  | _ => rfl

theorem command_ok (m : Msg) (hs : Sendable m) : (command m).length ≤ 12 ∧ (command m).getLast? ≠ some 0 := by
  cases m with
  | unhandle c => exact ⟨(hs.2 c rfl).1, (hs.2 c rfl).2.1⟩
  | _ => refine ⟨?_, ?_⟩ <;> dsimp only [command] <;> decide

theorem openFrame_good [Hashes] (own magic f d : Bytes) :
    openFrame own (magic, f, checksum d, d) = decode (makeEmptyMessage (trimZeros f)) d :=
  if_neg (by simp)

theorem readMessage_frame [Hashes] (own magic : Bytes) (hm : magic.length = 4) (m : Msg) (hf : Fits m) (hs : Sendable m)
    (rest : Bytes) : readMessage own (frame magic m ++ rest) = (.ok (arrives m), rest) := by
  have hs62 : (encode m).length < 2^62 := lt_trans hs.1 (by norm_num)
  rw [frame_eq, readMessage_ok own _ (partsOf_ok hm hs.1)]
  congr 1
  show openFrame own (magic, commandField (command m), checksum (encode m), encode m) = _
  rw [openFrame_good, trimZeros_names (names_field (command_ok m hs).1 (command_ok m hs).2),
    makeEmpty_blank m (fun c hc => (hs.2 c hc).2.2)]
  have := C75_roundtrip m hf hs62
  cases m with
  | ping n => rfl
  | pong n => rfl
  | _ => exact this

/-- **C76, for every sequence of messages.** Reading the concatenation of the frames of any messages yields, in order, one
message each: the same one, except for pings, pongs and `getheaders` (see `arrives`). -/
theorem C76_stream [Hashes] (magic : Bytes) (hm : magic.length = 4) (ms : List Msg) (hf : ∀ m ∈ ms, Fits m)
    (hs : ∀ m ∈ ms, Sendable m) :
    readLoop magic (ms.flatMap (frame magic)) = (ms.map arrives).map .receive ++ [.disconnect] := by
  induction ms with
  | nil =>
    rw [readLoop_eq]
    rfl
  | cons m ms ih =>
    rw [List.flatMap_cons, readLoop_eq,
      readMessage_frame magic magic hm m (hf m List.mem_cons_self) (hs m List.mem_cons_self)]
    dsimp only
    rw [ih (fun x hx => hf x (List.mem_cons_of_mem _ hx)) (fun x hx => hs x (List.mem_cons_of_mem _ hx))]
    rfl

theorem arrives_same (m : Msg) (h : NoStop m) (h1 : ∀ n, m ≠ .ping n) (h2 : ∀ n, m ≠ .pong n) : arrives m = id m := by
  cases m with
  | ping n => exact absurd rfl (h1 n)
  | pong n => exact absurd rfl (h2 n)
  | getheaders v l s => simp only [arrives, if_neg h.1, h.2, id]
  | _ => rfl

/-- **C76, partial.** Sequences without pings and pongs, whose `getheaders` name a locator and no stopping point, arrive
unchanged. -/
theorem C76_stream_partial [Hashes] (magic : Bytes) (hm : magic.length = 4) (ms : List Msg) (hf : ∀ m ∈ ms, Fits m)
    (hs : ∀ m ∈ ms, Sendable m) (hp : ∀ m ∈ ms, NoStop m ∧ (∀ n, m ≠ .ping n) ∧ ∀ n, m ≠ .pong n) :
    readLoop magic (ms.flatMap (frame magic)) = ms.map .receive ++ [.disconnect] := by
  rw [C76_stream magic hm ms hf hs]
  have : ms.map arrives = ms := by
    conv_rhs => rw [← List.map_id ms]
    apply List.map_congr_left
    intro m hm
    exact arrives_same m (hp m hm).1 (hp m hm).2.1 (hp m hm).2.2
  rw [this]

/-- **C76, exact.** Any other sequence arrives changed. -/
theorem C76_stream_iff [Hashes] (magic : Bytes) (hm : magic.length = 4) (ms : List Msg) (hf : ∀ m ∈ ms, Fits m)
    (hs : ∀ m ∈ ms, Sendable m) :
    readLoop magic (ms.flatMap (frame magic)) = ms.map .receive ++ [.disconnect] ↔
      ∀ m ∈ ms, NoStop m ∧ (∀ n, m ≠ .ping n) ∧ ∀ n, m ≠ .pong n := by
  refine ⟨fun h => ?_, C76_stream_partial magic hm ms hf hs⟩
  rw [C76_stream magic hm ms hf hs, List.append_left_inj] at h
  have h2 : ms.map arrives = ms := by
    apply List.map_injective_iff.mpr (fun a b hab => by injection hab) h
  intro m hmem
  have h3 : arrives m = m := by
    have : ms.map arrives = ms.map id := by rw [h2, List.map_id]
    exact List.map_inj_left.mp this m hmem
  cases m with
  | ping n => cases h3
  | pong n => cases h3
  | getheaders v l s =>
    simp only [arrives, Msg.getheaders.injEq, true_and] at h3
    refine ⟨⟨?_, h3.2.symm⟩, by simp, by simp⟩
    rintro rfl
    simp at h3
  | _ => exact ⟨trivial, by simp, by simp⟩

/-- **C76, negation.** A ping arrives as a message of unknown type; its nonce is lost. -/
theorem C76_negation [Hashes] (magic : Bytes) (hm : magic.length = 4) (n : UInt64) :
    Fits (.ping n) ∧ Sendable (.ping n) ∧
    readLoop magic (frame magic (.ping n)) = [.receive (.unhandle (ascii ['p', 'i', 'n', 'g'])), .disconnect] := by
  have hs : Sendable (.ping n) := ⟨by rw [encode_ping]; simp, by simp⟩
  refine ⟨trivial, hs, ?_⟩
  have := C76_stream magic hm [.ping n] (by simp [Fits]) (by simpa using hs)
  simpa [arrives] using this

/-- **C76, negation for long commands.** Only twelve bytes of a command are sent. -/
theorem C76_long_command [Hashes] (magic : Bytes) (hm : magic.length = 4) (c d : Bytes) (hc : c.length = 12)
    (hz : c.getLast? ≠ some 0) (hk : c ∉ knownCommands) :
    readLoop magic (frame magic (.unhandle (c ++ d))) = [.receive (.unhandle c), .disconnect] := by
  have e : frame magic (.unhandle (c ++ d)) = frame magic (.unhandle c) := by
    simp only [frame, command, encode, commandField]
    rw [List.take_append_of_le_length (by omega), List.take_of_length_le (by omega)]
    simp only [List.length_append, hc]
    simp
  have := C76_stream magic hm [.unhandle c] (by simp [Fits]) (by simp [Sendable, encode, hc, hz, hk])
  rw [e]
  simpa [arrives] using this

example : ∃ ms : List Msg, ms.length = 3 ∧ (∀ m ∈ ms, Fits m) ∧ (∀ m ∈ ms, Sendable m) ∧
    ∀ m ∈ ms, NoStop m ∧ (∀ n, m ≠ .ping n) ∧ ∀ n, m ≠ .pong n :=
  ⟨[.verack, .tx [1, 2, 3], .inv [⟨1, List.replicate 32 5⟩]], rfl, by simp [Fits],
    by simp [Sendable]; decide +kernel, by simp [NoStop]⟩

/-! ### C77 -/

/-- **C77, partial.** A message is returned exactly if the bytes start with a complete frame whose checksum matches its
payload and whose payload decodes for the command named. What is missing: the frame may be of any network. -/
theorem C77_checksum_partial [Hashes] (own w : Bytes) (m : Msg) (rest : Bytes) :
    readMessage own w = (.ok m, rest) ↔ ∃ f, w = f ++ rest ∧ Accepts f m := by
  constructor
  · intro h
    unfold readMessage at h
    split at h
    · cases h
    · rename_i q r hq
      simp only [Prod.mk.injEq] at h
      obtain ⟨h, rfl⟩ := h
      obtain ⟨p, hp, rfl, rfl⟩ := readParts_some hq
      unfold openFrame at h
      split at h
      · cases h
      · rename_i hc
        have hc' : p.check = checksum p.data := by simpa [Parts.tuple] using hc
        refine ⟨p.bytes, rfl, p.magic, p.command, trimZeros p.command, p.data, ?_, names_trimZeros _, h⟩
        rw [isFrame_iff]
        cases p
        simp only at hc'
        subst hc'
        exact ⟨hp, rfl⟩
  · rintro ⟨f, rfl, magic, field, c, data, hfr, hn, hd⟩
    obtain ⟨hp, rfl⟩ := (isFrame_iff _ _ _ _).mp hfr
    rw [readMessage_ok own _ hp]
    show (openFrame own (magic, field, checksum data, data), rest) = _
    rw [openFrame_good, trimZeros_names hn, hd]

/-- **C77, the type.** A returned message has the type that the frame's command names. -/
theorem C77_command [Hashes] (own w : Bytes) (m : Msg) (rest : Bytes) (h : readMessage own w = (.ok m, rest)) :
    ∃ f magic field data, w = f ++ rest ∧ IsFrame f magic field data ∧ Names field (command m) := by
  obtain ⟨f, rfl, magic, field, c, data, hfr, hn, hd⟩ := (C77_checksum_partial own w m rest).mp h
  refine ⟨f, magic, field, data, rfl, hfr, ?_⟩
  rw [decode_command hd, makeEmpty_command]
  exact hn

/-- **C77, damaged payloads.** A frame whose payload or checksum was changed so that they no longer match is refused. -/
theorem C77_damaged [Hashes] (own magic field check data rest : Bytes) (h1 : magic.length = 4) (h2 : field.length = 12)
    (h3 : check.length = 4) (h4 : data.length < 2^32)
    (hc : check ≠ (Hashes.sha256 (Hashes.sha256 data)).take 4) :
    readMessage own (magic ++ field ++ le 4 data.length ++ check ++ data ++ rest) = (.err errChecksum, rest) := by
  have e : le 4 data.length = le32 (UInt32.ofNat data.length) := by
    rw [← Wire.le4, UInt32.toNat_ofNat', Nat.mod_eq_of_lt h4]
  have : magic ++ field ++ le 4 data.length ++ check ++ data ++ rest =
      Parts.bytes ⟨magic, field, check, data⟩ ++ rest := by
    rw [e]
    simp [Parts.bytes]
  rw [this, readMessage_ok own _ ⟨h1, h2, h3, h4⟩]
  congr 1
  exact if_pos hc

/-- **C77, negation.** The network is not checked: a stream of any network accepts the frames of any other. -/
theorem C77_negation [Hashes] (own magic : Bytes) (hm : magic.length = 4) (m : Msg) (hf : Fits m) (hs : Sendable m) :
    readMessage own (frame magic m) = (.ok (arrives m), []) := by
  have := readMessage_frame own magic hm m hf hs []
  rwa [List.append_nil] at this

/-- A `verack` for the test network is accepted by a stream for the main network. -/
example [Hashes] : readMessage [0xf9, 0xbe, 0xb4, 0xd9] (frame [0x0b, 0x11, 0x09, 0x07] .verack) = (.ok .verack, []) :=
  C77_negation _ _ rfl .verack trivial ⟨by decide, by simp⟩

/-! ### C78 -/

theorem added_invariant {α : Type} {add : List α → List α → Res (List α)} (P : List α → Prop) (h0 : P [])
    (batches : List (List α)) (hs : ∀ b ∈ batches, ∀ l l', P l → add l b = .ok l' → P l') : P (added add batches) := by
  unfold added
  suffices ∀ l, P l → P (batches.foldl (fun l batch => match add l batch with | .ok l' => l' | _ => l) l) from this _ h0
  induction batches with
  | nil => intro l hl; exact hl
  | cons b bs ih =>
    intro l hl
    rw [List.foldl_cons]
    apply ih (fun b' hb' => hs b' (List.mem_cons_of_mem _ hb'))
    split
    · rename_i l' e
      exact hs b List.mem_cons_self l l' hl e
    · exact hl

theorem addGetData_ok {l b l' : List InvVect} (h : addGetData l b = .ok l') : l' = l ++ b ∧ l'.length ≤ 50000 := by
  unfold addGetData maxInvPerMsg at h
  split at h
  · cases h
  · cases h
    exact ⟨rfl, by rw [List.length_append]; omega⟩

theorem addInv_ok {l b l' : List InvVect} (h : addInv l b = .ok l') : l' = l ++ b ∧ l.length + 1 ≤ 50000 := by
  unfold addInv maxInvPerMsg at h
  split at h
  · cases h
  · cases h
    exact ⟨rfl, by omega⟩

theorem encodeInvs_length (l : List InvVect) (hl : l.length ≤ 50000) (hh : ∀ i ∈ l, i.hash.length = 32) :
    (encodeInvs l).length < 2^32 := by
  have : ∀ l : List InvVect, (∀ i ∈ l, i.hash.length = 32) → (l.flatMap encInv).length = 36 * l.length := by
    intro l
    induction l with
    | nil => intro _; rfl
    | cons i l ih =>
      intro hh
      rw [List.flatMap_cons, List.length_append, ih (fun j hj => hh j (List.mem_cons_of_mem _ hj))]
      simp only [encInv, List.length_append, le32_length, List.length_cons, hh i List.mem_cons_self]
      omega
  rw [encodeInvs_eq, List.length_append, this l hh, encVarInt_length]
  have : varIntSerializeSize (UInt64.ofNat l.length) ≤ 9 := by
    unfold varIntSerializeSize
    repeat' split
    all_goals omega
  omega

/-- **C78 for `getdata`.** However it was built, a `getdata` message holds at most 50000 inventory vectors, and a peer can
decode it. -/
theorem C78_getdata (batches : List (List InvVect)) (hh : ∀ b ∈ batches, ∀ i ∈ b, i.hash.length = 32) :
    (added addGetData batches).length ≤ 50000 ∧
    decode (.getdata []) (encode (.getdata (added addGetData batches))) = .ok (.getdata (added addGetData batches)) := by
  have h := added_invariant (add := addGetData)
    (fun l => l.length ≤ 50000 ∧ ∀ i ∈ l, i.hash.length = 32) ⟨by simp, by simp⟩ batches (by
      rintro b hb l l' ⟨h1, h2⟩ e
      obtain ⟨rfl, h3⟩ := addGetData_ok e
      refine ⟨h3, fun i hi => ?_⟩
      rcases List.mem_append.mp hi with hi | hi
      · exact h2 i hi
      · exact hh b hb i hi)
  exact ⟨h.1, C75_roundtrip_partial (.getdata _) h trivial (lt_trans (encodeInvs_length _ h.1 h.2) (by norm_num))⟩

/-- **C78 for `inv`, partial.** The same holds of an `inv` message to which inventory vectors were added one at a time.
What is missing: batches, see `C78_negation`. -/
theorem C78_inv_partial (batches : List (List InvVect)) (h1 : ∀ b ∈ batches, b.length ≤ 1)
    (hh : ∀ b ∈ batches, ∀ i ∈ b, i.hash.length = 32) :
    (added addInv batches).length ≤ 50000 ∧
    decode (.inv []) (encode (.inv (added addInv batches))) = .ok (.inv (added addInv batches)) := by
  have h := added_invariant (add := addInv)
    (fun l => l.length ≤ 50000 ∧ ∀ i ∈ l, i.hash.length = 32) ⟨by simp, by simp⟩ batches (by
      rintro b hb l l' ⟨_, h2⟩ e
      obtain ⟨rfl, h3⟩ := addInv_ok e
      refine ⟨?_, fun i hi => ?_⟩
      · have := h1 b hb
        rw [List.length_append]
        omega
      · rcases List.mem_append.mp hi with hi | hi
        · exact h2 i hi
        · exact hh b hb i hi)
  exact ⟨h.1, C75_roundtrip_partial (.inv _) h trivial (lt_trans (encodeInvs_length _ h.1 h.2) (by norm_num))⟩

/-- **C78 for `headers`, partial.** Added one at a time, there are at most 2000. -/
theorem C78_headers_partial (batches : List (List BlockHeader)) (h1 : ∀ b ∈ batches, b.length ≤ 1) :
    (added addHeaders batches).length ≤ 2000 := by
  refine added_invariant (add := addHeaders) (fun l => l.length ≤ 2000) (by simp) batches ?_
  intro b hb l l' _ e
  unfold addHeaders maxBlockHeadersPerMsg at e
  have := h1 b hb
  split at e
  · cases e
  · cases e
    rw [List.length_append]
    omega

theorem decodeInvs_many (old l : List InvVect) (hl : 50000 < l.length) (hs : (encodeInvs l).length < 2^62) :
    decodeInvs old (encodeInvs l) = .err errTooManyInv := by
  have h := rd_reader _ hs
  rw [encodeInvs_eq] at h hs ⊢
  have hl' : l.length < 2^62 := by
    have := Tx.length_flatMap_ge encInv 1 l (by intro x _; simp [encInv]; omega)
    simp only [List.length_append] at hs
    omega
  obtain ⟨b1, e1, r1, _⟩ := readVarInt_enc h
  unfold decodeInvs
  rw [e1, Res.ok_bind]
  dsimp only
  have hn : (UInt64.ofNat l.length).toNat = l.length := by rw [UInt64.toNat_ofNat']; omega
  rw [if_pos (by rw [hn]; unfold maxInvPerMsg; omega)]

/-- **C78, negation for `inv`.** Any batch, however large, can be added to an `inv` with fewer than 50000; no peer of this
library decodes the result if it is too large. -/
theorem C78_negation (l batch : List InvVect) (hl : l.length < 50000) (hb : 50000 < l.length + batch.length)
    (hs : (encodeInvs (l ++ batch)).length < 2^62) :
    addInv l batch = .ok (l ++ batch) ∧
    decode (.inv []) (encode (.inv (l ++ batch))) = .err errTooManyInv := by
  refine ⟨if_neg (by unfold maxInvPerMsg; omega), ?_⟩
  simp only [decode, encode]
  rw [decodeInvs_many _ _ (by rw [List.length_append]; omega) hs]
  rfl

/-- **C78, negation for `headers`.** Any batch can be added to fewer than 2000 headers; the decoder has no limit and takes
them all. -/
theorem C78_headers_negation (l batch : List BlockHeader) (hl : l.length < 2000) (hf : Fits (.headers (l ++ batch)))
    (hs : (encode (.headers (l ++ batch))).length < 2^62) :
    addHeaders l batch = .ok (l ++ batch) ∧
    decode (.headers []) (encode (.headers (l ++ batch))) = .ok (.headers (l ++ batch)) :=
  ⟨if_neg (by unfold maxBlockHeadersPerMsg; omega), C75_roundtrip_partial (.headers _) hf trivial hs⟩

theorem encodeInvs_replicate (n : Nat) : (encodeInvs (List.replicate n ⟨1, []⟩)).length ≤ 9 + n * 4 := by
  rw [encodeInvs_eq, List.length_append, encVarInt_length, List.length_flatMap, List.map_replicate, List.sum_replicate_nat]
  have : varIntSerializeSize (UInt64.ofNat (List.replicate n (⟨1, []⟩ : InvVect)).length) ≤ 9 := by
    unfold varIntSerializeSize
    repeat' split
    all_goals omega
  have e : (encInv ⟨1, []⟩).length = 4 := rfl
  rw [e]
  omega

/-- The batch of the negation exists: 50001 inventory vectors. -/
example : ∃ batch : List InvVect, 50000 < ([] : List InvVect).length + batch.length ∧
    (encodeInvs ([] ++ batch)).length < 2^62 :=
  ⟨List.replicate 50001 ⟨1, []⟩, by rw [List.length_replicate, List.length_nil]; omega, by
    have := encodeInvs_replicate 50001
    rw [List.nil_append]
    omega⟩

/-! ### C79 -/

/-- **C79, partial.** The read loop hands over one message for each frame, in wire order, up to the first frame that is
incomplete or refused, and then reports the disconnection once. What is missing: it does not if that frame makes the
decoder panic (see C82), which ends the process. -/
theorem C79_loop_partial [Hashes] (own w : Bytes) : ∃ ms rest, Carries w ms rest ∧
    ((readLoop own w = ms.map .receive ++ [.disconnect] ∧ ¬ ∃ f t m, rest = f ++ t ∧ Accepts f m) ∨
     (readLoop own w = ms.map .receive ++ [.crash] ∧ ∃ f t magic field c data, rest = f ++ t ∧
        IsFrame f magic field data ∧ Names field c ∧ decode (makeEmptyMessage c) data = .panic)) := by
  induction hn : w.length using Nat.strong_induction_on generalizing w with
  | _ n ih =>
    rw [readLoop_eq]
    rcases hr : readMessage own w with ⟨r, rest⟩
    cases r with
    | ok m =>
      obtain ⟨f, rfl, hacc⟩ := (C77_checksum_partial own w m rest).mp hr
      have hf : 0 < f.length := by
        obtain ⟨magic, field, c, data, hfr, _⟩ := hacc
        rw [hfr.2.2.2]
        simp only [List.length_append, hfr.1]
        omega
      obtain ⟨ms, rest', hc, hd⟩ := ih rest.length (by rw [← hn, List.length_append]; omega) rest rfl
      refine ⟨m :: ms, rest', ⟨f, rest, rfl, hacc, hc⟩, ?_⟩
      rcases hd with ⟨h1, h2⟩ | ⟨h1, h2⟩
      · left
        exact ⟨by dsimp only; rw [h1]; rfl, h2⟩
      · right
        exact ⟨by dsimp only; rw [h1]; rfl, h2⟩
    | err e =>
      refine ⟨[], w, rfl, .inl ⟨rfl, ?_⟩⟩
      rintro ⟨f, t, m, rfl, hacc⟩
      have := (C77_checksum_partial own (f ++ t) m t).mpr ⟨f, rfl, hacc⟩
      rw [this] at hr
      cases hr
    | panic =>
      refine ⟨[], w, rfl, .inr ⟨rfl, ?_⟩⟩
      unfold readMessage at hr
      split at hr
      · cases hr
      · rename_i q r hq
        simp only [Prod.mk.injEq] at hr
        obtain ⟨hr, rfl⟩ := hr
        obtain ⟨p, hp, rfl, rfl⟩ := readParts_some hq
        unfold openFrame at hr
        split at hr
        · cases hr
        · rename_i hc
          have hc' : p.check = checksum p.data := by simpa [Parts.tuple] using hc
          refine ⟨p.bytes, r, p.magic, p.command, trimZeros p.command, p.data, rfl, ?_, names_trimZeros _, hr⟩
          rw [isFrame_iff]
          cases p
          simp only at hc'
          subst hc'
          exact ⟨hp, rfl⟩

/-- **C79, the disconnection.** It is reported at most once, and nothing happens after it; it is reported unless the
process goes down. -/
theorem C79_disconnect_once [Hashes] (own w : Bytes) :
    ∃ ms : List Msg, readLoop own w = ms.map .receive ++ [.disconnect] ∨ readLoop own w = ms.map .receive ++ [.crash] := by
  obtain ⟨ms, _, _, ⟨h, _⟩ | ⟨h, _⟩⟩ := C79_loop_partial own w
  · exact ⟨ms, .inl h⟩
  · exact ⟨ms, .inr h⟩

/-- The payload of a `reject` that announces a command of 2^63 bytes. -/
def badReject : Bytes := [0xff, 0, 0, 0, 0, 0, 0, 0, 0x80]

/-- A correct frame around any payload. -/
def frameOf [Hashes] (magic field data : Bytes) : Bytes :=
  magic ++ field ++ le 4 data.length ++ (Hashes.sha256 (Hashes.sha256 data)).take 4 ++ data

/-- **C79, negation.** A peer that sends one correct frame with nine bytes of payload brings the process down; the
disconnect handler is not called. -/
theorem C79_negation [Hashes] (own magic : Bytes) (hm : magic.length = 4) :
    readLoop own (frameOf magic (ascii ['r', 'e', 'j', 'e', 'c', 't', '\x00', '\x00', '\x00', '\x00', '\x00', '\x00'])
      badReject) = [.crash] := by
  rw [readLoop_eq]
  have hfr : IsFrame (frameOf magic (ascii ['r', 'e', 'j', 'e', 'c', 't', '\x00', '\x00', '\x00', '\x00', '\x00',
      '\x00']) badReject) magic (ascii ['r', 'e', 'j', 'e', 'c', 't', '\x00', '\x00', '\x00', '\x00', '\x00', '\x00'])
      badReject := ⟨hm, rfl, by decide, rfl⟩
  obtain ⟨hp, hb⟩ := (isFrame_iff _ _ _ _).mp hfr
  have := readMessage_ok own _ hp []
  rw [List.append_nil, ← hb] at this
  rw [this]
  show (match (openFrame own (magic, _, checksum badReject, badReject), ([] : Bytes)) with
    | (.ok m, rest) => Event.receive m :: readLoop own rest
    | (.err _, _) => [.disconnect]
    | (.panic, _) => [.crash]) = _
  rw [openFrame_good]
  rfl

/-! ### C82 -/

/-- **C82, exact.** Decoding panics for `version` and `reject` messages only, and for those exactly if the user agent
(after 80 bytes), the rejected command or the reason announces a length reaching position 2^63. -/
theorem C82_panics_iff (m : Msg) (d : Bytes) (hd : d.length < 2^62) : decode m d = .panic ↔
    match m with
    | .version _ => ∃ p t, d = p ++ t ∧ p.length = 80 ∧ Huge 80 t
    | .reject _ => Huge 0 d ∨
        ∃ e x c t, d = e ++ x ++ c :: t ∧ IsVarInt e x.length ∧ Huge (e.length + x.length + 1) t
    | _ => False := by
  have pan : ∀ {α β : Type} (x : Res α) (f : α → β), (x >>= fun a => pure (f a)) = .panic ↔ x = .panic := by
    intro α β x f
    cases x <;> simp
  cases m with
  | version v => simp only [decode, pan]; exact decodeVersion_panic d hd
  | reject r => simp only [decode, pan]; exact decodeReject_panic r d hd
  | verack => simp [decode]
  | tx _ => simp [decode]
  | unhandle _ => simp [decode]
  | inv l => simp only [decode, pan, iff_false]; exact decodeInvs_safe l d hd
  | getdata l => simp only [decode, pan, iff_false]; exact decodeInvs_safe l d hd
  | headers l => simp only [decode, pan, iff_false]; exact decodeHeaders_safe l d hd
  | getheaders v l s => simp only [decode, iff_false]; exact decodeGetHeaders_safe l s d hd
  | ping n => simp only [decode, pan, iff_false]; exact decodeNonce_safe d hd
  | pong n => simp only [decode, pan, iff_false]; exact decodeNonce_safe d hd

/-- **C82, partial.** All commands but "version" and "reject" can be decoded from any payload without a panic. -/
theorem C82_never_panics_partial (c d : Bytes) (hd : d.length < 2^62) (h1 : c ≠ ascii ['v', 'e', 'r', 's', 'i', 'o', 'n'])
    (h2 : c ≠ ascii ['r', 'e', 'j', 'e', 'c', 't']) : decode (makeEmptyMessage c) d ≠ .panic := by
  rw [Ne, C82_panics_iff _ d hd]
  have hc := makeEmpty_command c
  split
  · rename_i v hm
    rw [hm] at hc
    exact absurd hc.symm h1
  · rename_i r hm
    rw [hm] at hc
    exact absurd hc.symm h2
  · exact id

/-- **C82, negation.** Nine bytes are enough to make decoding a `reject` panic, and 89 for a `version`. -/
theorem C82_negation :
    decode (makeEmptyMessage (ascii ['r', 'e', 'j', 'e', 'c', 't'])) badReject = .panic ∧
    decode (makeEmptyMessage (ascii ['v', 'e', 'r', 's', 'i', 'o', 'n'])) (List.replicate 80 0 ++ badReject) = .panic := by
  constructor <;> decide +kernel

example : decode (makeEmptyMessage (ascii ['v', 'e', 'r', 's', 'i', 'o', 'n'])) (List.replicate 86 0) =
    .ok (.version ⟨0, 0, 0, 0, List.replicate 16 0, 0, 0, List.replicate 16 0, 0, 0, [], 0, 0⟩) := by decide +kernel

end Toku.Props
