import Verif.Proof.RpcJson
/-
C98: whatever a node answers, a call of the RPC client returns, and an error the node reports is returned as an error.
C99: what the node says is what the caller gets: heights, hashes, headers and blocks.
-/
namespace Toku.Props
open Toku.Rpc Toku.Rpc.Spec

/-- The requests of the four calls, spelled out. -/
def askHash (c : Client) (height : Int) : Request := ⟨c.host, c.user, c.pass, .obj [("method", .str (name "getblockhash")),
  ("params", .arr [num height]), ("id", .int false 0)]⟩
def askCount (c : Client) : Request := ⟨c.host, c.user, c.pass, .obj [("method", .str (name "getblockcount")),
  ("params", .null), ("id", .int false 0)]⟩
def askHeader (c : Client) (hash : Bytes) : Request := ⟨c.host, c.user, c.pass, .obj [("method", .str (name "getblockheader")),
  ("params", .arr [.str hash]), ("id", .int false 0)]⟩
def askBlock (c : Client) (hash : Bytes) : Request := ⟨c.host, c.user, c.pass, .obj [("method", .str (name "getblock")),
  ("params", .arr [.str hash, .int false 3]), ("id", .int false 0)]⟩

theorem getBlockHash_eq (node : Node) (c : Client) (height : Int) :
    getBlockHash node c height = method (fun _ => node (askHash c height)) c [] [] (asStr []) := rfl
theorem getBlockCount_eq (node : Node) (c : Client) :
    getBlockCount node c = method (fun _ => node (askCount c)) c [] [] (asInt 64 0) := rfl
theorem getBlockHeader_eq (node : Node) (c : Client) (hash : Bytes) :
    getBlockHeader node c hash = method (fun _ => node (askHeader c hash)) c [] [] (asStruct Header.step {}) := rfl
theorem getBlock_eq (node : Node) (c : Client) (hash : Bytes) :
    getBlock node c hash = method (fun _ => node (askBlock c hash)) c [] [] (asStruct Block.step {}) := rfl

/-- **C98, exactly when.** A call panics exactly when the node answers its request with neither a result nor an error. The claim asks
for no panic at all; see `C98_silent_answer_panics`. -/
theorem C98_panics_iff_partial (node : Node) (c : Client) (height : Int) (hash : Bytes) :
    (getBlockHash node c height = .panic ↔ Blank (node (askHash c height))) ∧
    (getBlockCount node c = .panic ↔ Blank (node (askCount c))) ∧
    (getBlockHeader node c hash = .panic ↔ Blank (node (askHeader c hash))) ∧
    (getBlock node c hash = .panic ↔ Blank (node (askBlock c hash))) := by
  rw [getBlockHash_eq, getBlockCount_eq, getBlockHeader_eq, getBlock_eq]
  exact ⟨method_panic fun v => asStr_np _ v, method_panic fun v => asInt_np _ _ v,
    method_panic fun v => asStruct_np Header.step_np _ v, method_panic fun v => asStruct_np Block.step_np _ v⟩

/-- **C98, against the code.** A node that answers every request with `{"result":null,"error":null,"id":0}` makes every call panic. -/
theorem C98_silent_answer_panics : ∃ node : Node, (∀ r, node r = .body (.obj [("result", .null), ("error", .null), ("id", .int false 0)])) ∧
    ∀ c height hash, getBlockHash node c height = .panic ∧ getBlockCount node c = .panic ∧ getBlockHeader node c hash = .panic ∧
      getBlock node c hash = .panic :=
  ⟨fun _ => .body (.obj [("result", .null), ("error", .null), ("id", .int false 0)]), fun _ => rfl,
    fun _ _ _ => ⟨rfl, rfl, rfl, rfl⟩⟩

theorem fails_not_gives {a : Answer} (h : Fails a) (v : Json) : ¬ Gives a v := by
  obtain ⟨fs, rfl, hl⟩ := h
  rintro ⟨gs, he, _, hl', _⟩
  simp only [Answer.body.injEq, Json.obj.injEq] at he
  subst he
  exact hl hl'

theorem fails_not_blank {a : Answer} (h : Fails a) : ¬ Blank a := by
  obtain ⟨fs, rfl, hl⟩ := h
  rintro (he | ⟨gs, he, _, hl', _⟩)
  · simp at he
  · simp only [Answer.body.injEq, Json.obj.injEq] at he
    subst he
    exact hl hl'

theorem method_err {α : Type} {a : Answer} {c : Client} {f : Json → Res α} (hf : ∀ v, f v ≠ .panic) (hb : ¬ Blank a)
    (hg : ∀ v, ¬ Gives a v) : ∃ e, method (fun _ => a) c [] [] f = .err e := by
  cases h : method (fun _ => a) c [] [] f with
  | ok x => obtain ⟨v, h1, _⟩ := method_ok.1 h; exact absurd h1 (hg v)
  | err e => exact ⟨e, rfl⟩
  | panic => exact absurd ((method_panic hf).1 h) hb

/-- **C98, errors.** When the node reports an error, or there is no answer at all, the call returns an error. -/
theorem C98_errors_returned (node : Node) (c : Client) (height : Int) (hash : Bytes) :
    (Fails (node (askHash c height)) ∨ node (askHash c height) = .failed → ∃ e, getBlockHash node c height = .err e) ∧
    (Fails (node (askCount c)) ∨ node (askCount c) = .failed → ∃ e, getBlockCount node c = .err e) ∧
    (Fails (node (askHeader c hash)) ∨ node (askHeader c hash) = .failed → ∃ e, getBlockHeader node c hash = .err e) ∧
    (Fails (node (askBlock c hash)) ∨ node (askBlock c hash) = .failed → ∃ e, getBlock node c hash = .err e) := by
  have key : ∀ a : Answer, Fails a ∨ a = .failed → ¬ Blank a ∧ ∀ v, ¬ Gives a v := by
    rintro a (h | rfl)
    · exact ⟨fails_not_blank h, fails_not_gives h⟩
    · refine ⟨?_, ?_⟩
      · rintro (h | ⟨_, h, _⟩) <;> simp at h
      · rintro v ⟨_, h, _⟩; simp at h
  rw [getBlockHash_eq, getBlockCount_eq, getBlockHeader_eq, getBlock_eq]
  exact ⟨fun h => method_err (fun v => asStr_np _ v) (key _ h).1 (key _ h).2,
    fun h => method_err (fun v => asInt_np _ _ v) (key _ h).1 (key _ h).2,
    fun h => method_err (fun v => asStruct_np Header.step_np _ v) (key _ h).1 (key _ h).2,
    fun h => method_err (fun v => asStruct_np Block.step_np _ v) (key _ h).1 (key _ h).2⟩

/-- An error of a node: it is reported, and the call returns an error. -/
example : ∃ e, getBlockCount (fun _ => .body (.obj [("result", .null),
    ("error", .obj [("code", .int true 8), ("message", .str (name "Block height out of range"))]), ("id", .int false 0)]))
    ⟨[], [], []⟩ = .err e :=
  (C98_errors_returned _ ⟨[], [], []⟩ 0 []).2.1 (Or.inl ⟨_, rfl, by unfold Lacks; simp [lastOf]⟩)

/-- **C99, heights and hashes.** The call returns a number, or a text, exactly when the node's result is that number, or that text. -/
theorem C99_count_and_hash (node : Node) (c : Client) (height : Int) :
    (∀ n, getBlockCount node c = .ok n ↔ ∃ neg m, Gives (node (askCount c)) (.int neg m) ∧ n = intVal neg m ∧ Fits 64 n) ∧
    (∀ s, getBlockHash node c height = .ok s ↔ Gives (node (askHash c height)) (.str s)) := by
  rw [getBlockCount_eq, getBlockHash_eq]
  constructor
  · intro n
    rw [method_ok]
    constructor
    · rintro ⟨v, hg, hv⟩
      cases v with
      | int neg m =>
        simp only [asInt] at hv
        split at hv
        · next h =>
          simp only [Res.ok.injEq] at hv
          subst hv
          exact ⟨neg, m, hg, rfl, h⟩
        · simp at hv
      | null => obtain ⟨_, _, _, _, _, hne⟩ := hg; exact absurd rfl hne
      | _ => simp [asInt] at hv
    · rintro ⟨neg, m, hg, rfl, hf⟩
      exact ⟨_, hg, by simp only [asInt]; exact if_pos hf⟩
  · intro s
    rw [method_ok]
    constructor
    · rintro ⟨v, hg, hv⟩
      cases v with
      | str t => simp only [asStr, Res.ok.injEq] at hv; subst hv; exact hg
      | null => obtain ⟨_, _, _, _, _, hne⟩ := hg; exact absurd rfl hne
      | _ => simp [asStr] at hv
    · intro hg
      exact ⟨_, hg, rfl⟩

/-- **C99, blocks.** Every block a node describes is returned as described: all its members, all its transactions with all their
inputs and outputs. The block must be in the best chain: its confirmations are not negative. -/
theorem C99_block_partial (node : Node) (c : Client) (hash : Bytes) (b : Block) (hf : BlockFits b) (hc : b.confirmations < 2 ^ 64)
    (hn : Gives (node (askBlock c hash)) (block b b.confirmations)) : getBlock node c hash = .ok b := by
  rw [getBlock_eq, method_gives hn]
  exact block_ok b hf hc

theorem block_stale {b : Block} {n : Int} (h : n < 0) : asStruct Block.step {} (block b n) = .err errType := by
  unfold block
  rw [asStruct_obj, List.append_assoc, List.append_assoc, fields_append]
  simp only [fields, Block.step, String.reduceEq, if_true, if_false, asStr, Res.ok_bind, Res.pure_eq, asUint_neg h, Res.err_bind]

/-- **C99, against the code.** A block outside the best chain, which a node describes with −1 confirmations, is never returned. -/
theorem C99_stale_block_refused (node : Node) (c : Client) (hash : Bytes) (b : Block) (n : Int) (h : n < 0)
    (hn : Gives (node (askBlock c hash)) (block b n)) : getBlock node c hash = .err errType := by
  rw [getBlock_eq, method_gives hn]
  exact block_stale h

/-- What a hash that may be missing decodes to. -/
def decodeMaybe : Option Bytes → Option Bytes
  | some t => decode64 t
  | none => some []

theorem header_ok (h : Header) (hf : HeaderFits h) (p n : Option Bytes) (pb nb : Bytes)
    (hp : decodeMaybe p = some pb) (hn : decodeMaybe n = some nb) :
    asStruct Header.step {} (header h p n) = .ok { h with previous := pb, next := nb } := by
  unfold header
  rw [asStruct_obj, List.append_assoc, fields_append, header_fields h hf, Res.ok_bind]
  cases p with
  | none =>
    simp only [decodeMaybe, Option.some.injEq] at hp
    cases n with
    | none =>
      simp only [decodeMaybe, Option.some.injEq] at hn
      subst hp hn
      simp only [List.append_nil, fields]
    | some n =>
      simp only [decodeMaybe] at hn
      simp only [List.nil_append, fields, Header.step, String.reduceEq, if_true, if_false, asBytes, hn, Res.ok_bind, Res.pure_eq, hp]
  | some p =>
    simp only [decodeMaybe] at hp
    cases n with
    | none =>
      simp only [decodeMaybe, Option.some.injEq] at hn
      simp only [List.append_nil, fields, Header.step, String.reduceEq, if_true, if_false, asBytes, hp, Res.ok_bind, Res.pure_eq, hn]
    | some n =>
      simp only [decodeMaybe] at hn
      simp only [List.cons_append, List.nil_append, fields, Header.step, String.reduceEq, if_true, if_false, asBytes, hp, hn,
        Res.ok_bind, Res.pure_eq]

/-- **C99, headers and the defect in them.** Every header a node describes is returned, and every member but the hashes of the
neighbours is as described, also for headers outside the best chain. The hash of each neighbour given is returned as 48 bytes, which are
not the 32 bytes of any hash: they are what its 64 digits decode to when they are read as base64. Where a neighbour is not given,
nothing is returned for it. -/
theorem C99_header_partial (node : Node) (c : Client) (hash : Bytes) (h : Header) (hf : HeaderFits h) (p n : Option Bytes)
    (hp : ∀ t, p = some t → HashText t) (hn : ∀ t, n = some t → HashText t)
    (hg : Gives (node (askHeader c hash)) (header h p n)) :
    ∃ pb nb, getBlockHeader node c hash = .ok { h with previous := pb, next := nb } ∧
      (∀ t, p = some t → pb.length = 48 ∧ encode64 pb = t) ∧ (p = none → pb = []) ∧
      (∀ t, n = some t → nb.length = 48 ∧ encode64 nb = t) ∧ (n = none → nb = []) := by
  have key : ∀ o : Option Bytes, (∀ t, o = some t → HashText t) →
      ∃ b, decodeMaybe o = some b ∧ (∀ t, o = some t → b.length = 48 ∧ encode64 b = t) ∧
        (o = none → b = []) := by
    intro o ho
    cases o with
    | none => exact ⟨[], rfl, by simp, by simp⟩
    | some t =>
      obtain ⟨b, h1, h2, h3⟩ := decode64_hash (ho t rfl)
      exact ⟨b, h1, by rintro _ ⟨⟩; exact ⟨h2, h3⟩, by simp⟩
  obtain ⟨pb, p1, p2, p3⟩ := key p hp
  obtain ⟨nb, n1, n2, n3⟩ := key n hn
  refine ⟨pb, nb, ?_, p2, p3, n2, n3⟩
  rw [getBlockHeader_eq, method_gives hg]
  exact header_ok h hf p n pb nb p1 n1

/-- **C99, against the code.** Whatever header a node describes with a previous hash, no caller gets 32 bytes as previous hash. -/
theorem C99_previous_hash_wrong (node : Node) (c : Client) (hash : Bytes) (h r : Header) (hf : HeaderFits h) (t : Bytes)
    (ht : HashText t) (n : Option Bytes) (hn : ∀ t, n = some t → HashText t)
    (hg : Gives (node (askHeader c hash)) (header h (some t) n)) (hr : getBlockHeader node c hash = .ok r) :
    r.previous.length ≠ 32 := by
  obtain ⟨pb, nb, h1, h2, _⟩ := C99_header_partial node c hash h hf (some t) n (by rintro _ ⟨⟩; exact ht) hn hg
  rw [h1, Res.ok.injEq] at hr
  subst hr
  simp [(h2 t rfl).1]

/-- **C99, why the tests pass.** A server that writes the hashes of the neighbours in base64, as the mock server does by marshalling
the struct it has read, has them returned. -/
theorem C99_mock_header (node : Node) (c : Client) (hash : Bytes) (h : Header) (hf : HeaderFits h)
    (hg : Gives (node (askHeader c hash)) (header h (some (encode64 h.previous)) (some (encode64 h.next)))) :
    getBlockHeader node c hash = .ok h := by
  rw [getBlockHeader_eq, method_gives hg]
  exact header_ok h hf _ _ _ _ (decode64_encode _) (decode64_encode _)

/-- **C99, members left out.** Members that are missing are not noticed: an empty object is returned as a block, and as a header, of
zeros and empty texts. -/
theorem C99_missing_members_unnoticed (node : Node) (c : Client) (hash : Bytes) :
    (Gives (node (askBlock c hash)) (.obj []) → getBlock node c hash = .ok {}) ∧
    (Gives (node (askHeader c hash)) (.obj []) → getBlockHeader node c hash = .ok {}) := by
  rw [getBlock_eq, getBlockHeader_eq]
  exact ⟨fun h => by rw [method_gives h]; rfl, fun h => by rw [method_gives h]; rfl⟩

/-- The header of /repo/xrpc/testdata/blockheaders.json, outside the best chain. -/
def sampleHeader : Header where
  hash := name "00000000b873e79784647a6c82962c70d228557d24a747ea4d1b8bbe878e1206"
  confirmations := -1
  height := 1
  version := 1
  versionHex := name "00000001"
  time := 1296688928
  nonce := 1924588547
  bits := name "1d00ffff"

def samplePrevious : Bytes := name "000000000933ea01ad0ee984209779baaec3ced90fa3f408719526f8d77f4943"

theorem gives_sample (v : Json) (h : v ≠ .null) : Gives (.body (.obj [("result", v), ("error", .null), ("id", .int false 0)])) v := by
  refine ⟨_, rfl, ⟨?_, ?_⟩, ?_, ?_, h⟩
  · intro x hx
    simp at hx
    exact Or.inr ⟨0, by decide, hx⟩
  · intro x hx
    simp at hx
    exact Or.inl hx
  · unfold Lacks; simp [lastOf]
  · simp [lastOf]

theorem hashText_sample : HashText samplePrevious := by
  refine ⟨by decide +kernel, ?_⟩
  unfold HexDigit
  decide +kernel

theorem sampleHeader_fits : HeaderFits sampleHeader := by
  constructor <;> simp [sampleHeader, Fits]

/-- The header is returned with 48 bytes that begin with d34d34 and not with 00000000. -/
example : ∃ r, getBlockHeader (fun _ => .body (.obj [("result", header sampleHeader (some samplePrevious) none), ("error", .null),
      ("id", .int false 0)])) ⟨[], [], []⟩ [] = .ok r ∧ r.previous.length = 48 ∧ r.previous.take 3 = [0xd3, 0x4d, 0x34] ∧
      r.confirmations = -1 := by
  obtain ⟨pb, nb, h1, h2, _⟩ := C99_header_partial (fun _ => .body (.obj [("result", header sampleHeader (some samplePrevious) none),
    ("error", .null), ("id", .int false 0)])) ⟨[], [], []⟩ [] sampleHeader sampleHeader_fits (some samplePrevious) none
    (by rintro _ ⟨⟩; exact hashText_sample) (by simp) (gives_sample _ (by simp [header]))
  refine ⟨_, h1, (h2 _ rfl).1, ?_, rfl⟩
  have e := decode64_encode pb
  rw [(h2 _ rfl).2] at e
  have : decode64 samplePrevious = some pb := e
  have h3 : (decode64 samplePrevious).map (List.take 3) = some [0xd3, 0x4d, 0x34] := by decide +kernel
  rw [this] at h3
  simpa using h3

/-- A block with a coinbase transaction and one that spends. -/
def sampleBlock : Block where
  hash := name "00aa"
  confirmations := 7
  strippedSize := 500
  size := 700
  weight := 2200
  height := 5
  version := 536870912
  tx := [
    { txid := name "aa", version := 1, size := 134, vsize := 107, weight := 428,
      vin := [{ coinbase := name "0105", sequence := 4294967295 }],
      vout := [{ value := .dec (name "50.0"), n := 0, scriptPubKey := { hex := name "51", type := name "nonstandard" } }] },
    { txid := name "bb", version := 2, size := 222, vsize := 222, weight := 888, lockTime := 4,
      vin := [{ txid := name "cc", vout := 1, scriptSig := { hex := name "00" }, sequence := 4294967294 }],
      vout := [{ value := .dec (name "0.1"), n := 0,
                 scriptPubKey := { reqSigs := 1, type := name "pubkeyhash", addresses := [name "m"] } }] }]
  nTx := 2
  time := 1296688928
  nonce := 1924588547
  previous := name "0099"

example : getBlock (fun _ => .body (.obj [("result", block sampleBlock 7), ("error", .null), ("id", .int false 0)])) ⟨[], [], []⟩ [] =
    .ok sampleBlock := by
  refine C99_block_partial _ _ _ sampleBlock ?_ (by simp [sampleBlock]) (gives_sample _ (by simp [block]))
  constructor <;> simp [sampleBlock, Fits]
  all_goals constructor <;> (try simp [Fits])
  all_goals constructor <;> simp [Fits]
  all_goals constructor <;> simp [Fits]

example : getBlock (fun _ => .body (.obj [("result", block sampleBlock (-1)), ("error", .null), ("id", .int false 0)])) ⟨[], [], []⟩ [] =
    .err errType :=
  C99_stale_block_refused _ _ _ sampleBlock (-1) (by decide) (gives_sample _ (by simp [block]))

end Toku.Props
