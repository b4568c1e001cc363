import Verif.Model.Basic
/-
The client for the RPC interface of a node: xrpc/client.go, xrpc/method.go, xrpc/models.go. HTTP and the text of JSON are not modelled:
a node is a function from requests to answers, and an answer is either a failure (no connection, time-out, a body whose first JSON
value does not parse) or the first JSON value of the body. The status code is not part of an answer: the code does not look at it.
encoding/json is modelled by its documentation for the types of xrpc/models.go. Simplified: names of fields are compared exactly
(Go ignores case where no name matches exactly); a field given twice with lists is decoded afresh the second time.
-/
namespace Toku.Rpc

/-- JSON values. Numbers are kept as written: integers with their sign, others as text. -/
inductive Json where
  | null
  | bool (b : Bool)
  | int (neg : Bool) (n : Nat)
  | dec (text : Bytes)
  | str (s : Bytes)
  | arr (xs : List Json)
  | obj (fs : List (String × Json))

/-- A number as written; stands for a `float64`. Parsing and rounding of floats are not modelled, nor the error for numbers too large. -/
inductive Lit where
  | int (neg : Bool) (n : Nat)
  | dec (text : Bytes)
  deriving DecidableEq, Repr

def Lit.json : Lit → Json
  | .int s n => .int s n
  | .dec t => .dec t

/-- The error of json.Unmarshal for a value of the wrong type. -/
def errType : Err := .other 980
/-- The error of json.Unmarshal for a string that is not base64. -/
def errBase64 : Err := .other 981
/-- Any error of json.Marshal, http.NewRequest, httpClient.Do, or of the decoder for a body that is not JSON: xrpc/client.go:60-84. -/
def errTransport : Err := .other 982
/-- The error made of the node's error, client.go:87. -/
def errNode : Err := .other 983

/-! ### Values of encoding/json. A decoder takes the old value: `null` leaves it as it is, except for slices and pointers. -/

/-- A `string`. -/
def asStr (old : Bytes) : Json → Res Bytes
  | .str s => .ok s
  | .null => .ok old
  | _ => .err errType

/-- An integer as written. -/
def intVal (neg : Bool) (n : Nat) : Int := if neg then -(n : Int) else n

/-- A signed integer of the given number of bits. -/
def asInt (bits : Nat) (old : Int) : Json → Res Int
  | .int neg n => if -2 ^ (bits - 1) ≤ intVal neg n ∧ intVal neg n < 2 ^ (bits - 1) then .ok (intVal neg n) else .err errType
  | .null => .ok old
  | _ => .err errType

/-- An unsigned integer of the given number of bits; strconv.ParseUint takes no sign. -/
def asUint (bits : Nat) (old : Nat) : Json → Res Nat
  | .int neg n => if neg = false ∧ n < 2 ^ bits then .ok n else .err errType
  | .null => .ok old
  | _ => .err errType

/-- A `float64`. -/
def asFloat (old : Lit) : Json → Res Lit
  | .int neg n => .ok (.int neg n)
  | .dec t => .ok (.dec t)
  | .null => .ok old
  | _ => .err errType

/-- The value of a letter of the standard alphabet of base64. -/
def val64 (c : UInt8) : Option Nat :=
  if 0x41 ≤ c ∧ c ≤ 0x5a then some (c.toNat - 0x41)
  else if 0x61 ≤ c ∧ c ≤ 0x7a then some (c.toNat - 0x61 + 26)
  else if 0x30 ≤ c ∧ c ≤ 0x39 then some (c.toNat - 0x30 + 52)
  else if c = 0x2b then some 62
  else if c = 0x2f then some 63
  else none

/-- Groups of four letters of base64.StdEncoding (not strict: unused bits of the last group are ignored). -/
def groups64 : Bytes → Option Bytes
  | [] => some []
  | a :: b :: c :: d :: rest =>
    match val64 a, val64 b with
    | some x, some y =>
      if c = 0x3d then
        if d = 0x3d ∧ rest = [] then some [UInt8.ofNat (x * 4 + y / 16)] else none
      else match val64 c with
        | none => none
        | some z =>
          if d = 0x3d then
            if rest = [] then some [UInt8.ofNat (x * 4 + y / 16), UInt8.ofNat (y % 16 * 16 + z / 4)] else none
          else match val64 d, groups64 rest with
            | some w, some r =>
              some (UInt8.ofNat (x * 4 + y / 16) :: UInt8.ofNat (y % 16 * 16 + z / 4) :: UInt8.ofNat (z % 4 * 64 + w) :: r)
            | _, _ => none
    | _, _ => none
  | _ => none

/-- base64.StdEncoding.Decode: line ends are skipped. -/
def decode64 (s : Bytes) : Option Bytes := groups64 (s.filter fun c => c ≠ 0x0a ∧ c ≠ 0x0d)

/-- The letter of a value below 64. -/
def char64 (n : Nat) : UInt8 :=
  if n < 26 then UInt8.ofNat (0x41 + n)
  else if n < 52 then UInt8.ofNat (0x61 + (n - 26))
  else if n < 62 then UInt8.ofNat (0x30 + (n - 52))
  else if n = 62 then 0x2b else 0x2f

/-- base64.StdEncoding.Encode. -/
def encode64 : Bytes → Bytes
  | [] => []
  | [a] => [char64 (a.toNat / 4), char64 (a.toNat % 4 * 16), 0x3d, 0x3d]
  | [a, b] => [char64 (a.toNat / 4), char64 (a.toNat % 4 * 16 + b.toNat / 16), char64 (b.toNat % 16 * 4), 0x3d]
  | a :: b :: c :: rest =>
    char64 (a.toNat / 4) :: char64 (a.toNat % 4 * 16 + b.toNat / 16) :: char64 (b.toNat % 16 * 4 + c.toNat / 64)
      :: char64 (c.toNat % 64) :: encode64 rest

/-- The elements of a JSON array, one after the other. -/
def elems {α : Type} (f : Json → Res α) : List Json → Res (List α)
  | [] => .ok []
  | x :: xs => do
    let a ← f x
    let r ← elems f xs
    return a :: r

/-- A `[]byte`: a string is base64, an array is its elements, `null` is the nil slice. -/
def asBytes (_old : Bytes) : Json → Res Bytes
  | .str s => match decode64 s with
    | some b => .ok b
    | none => .err errBase64
  | .arr xs => elems (fun x => do return UInt8.ofNat (← asUint 8 0 x)) xs
  | .null => .ok []
  | _ => .err errType

/-- A slice of another type. -/
def asList {α : Type} (f : Json → Res α) : Json → Res (List α)
  | .arr xs => elems f xs
  | .null => .ok []
  | _ => .err errType

/-- The fields of an object, one after the other. (Go decodes on after a field of the wrong type and returns the first error.) -/
def fields {σ : Type} (step : σ → String → Json → Res σ) : σ → List (String × Json) → Res σ
  | s, [] => .ok s
  | s, (k, v) :: fs => do
    let s ← step s k v
    fields step s fs

/-- A struct. -/
def asStruct {σ : Type} (step : σ → String → Json → Res σ) (old : σ) : Json → Res σ
  | .obj fs => fields step old fs
  | .null => .ok old
  | _ => .err errType

/-! ### The client -/

/-- `Error`, client.go:25-28 -/
structure NodeError where
  code : Int
  message : Bytes
  deriving DecidableEq, Repr

def NodeError.step (e : NodeError) (k : String) (v : Json) : Res NodeError :=
  if k = "code" then do return { e with code := ← asInt 64 e.code v }
  else if k = "message" then do return { e with message := ← asStr e.message v }
  else .ok e

/-- `Response`, client.go:31-35. `result` is the raw message; none is the nil pointer, which `null` gives. -/
structure Response where
  id : Nat
  result : Option Json
  error : Option NodeError

def Response.step (r : Response) (k : String) (v : Json) : Res Response :=
  if k = "id" then do return { r with id := ← asUint 64 r.id v }
  else if k = "result" then .ok { r with result := match v with | .null => none | v => some v }
  else if k = "error" then match v with
    | .null => .ok { r with error := none }
    | v => do return { r with error := some (← asStruct NodeError.step (r.error.getD ⟨0, []⟩) v) }
  else .ok r

/-- `Client`, client.go:38-43 -/
structure Client where
  host : Bytes
  user : Bytes
  pass : Bytes

/-- What is sent: the address, the credentials and the body. -/
structure Request where
  host : Bytes
  user : Bytes
  pass : Bytes
  body : Json

/-- What comes back: a failure, or the first JSON value of the body. -/
inductive Answer where
  | failed
  | body (v : Json)

/-- A node. -/
abbrev Node := Request → Answer

/-- The request of client.go:55-70. No parameters are a nil slice, hence `null`; the id is never set. -/
def request (c : Client) (method : Bytes) (params : List Json) : Request :=
  ⟨c.host, c.user, c.pass,
    .obj [("method", .str method), ("params", if params.isEmpty then .null else .arr params), ("id", .int false 0)]⟩

/-- client.go:55-91 -/
def call (node : Node) (c : Client) (method : Bytes) (params : List Json) : Res Response :=
  match node (request c method params) with
  | .failed => .err errTransport
  | .body v => do
    let resp ← asStruct Response.step ⟨0, none, none⟩ v
    if resp.error.isSome then .err errNode
    return resp

/-- `json.Unmarshal(*rawResp.Result, …)`: the nil pointer is followed without a test. method.go:20, 34, 48, 63 -/
def unmarshal {α : Type} (r : Response) (f : Json → Res α) : Res α :=
  match r.result with
  | none => .panic
  | some v => f v

/-! ### Results, models.go -/

/-- `BlockHeaderResult`, models.go:9-24 -/
structure Header where
  hash : Bytes := []
  confirmations : Int := 0
  height : Int := 0
  version : Int := 0
  versionHex : Bytes := []
  merkleRoot : Bytes := []
  time : Nat := 0
  medianTime : Int := 0
  nonce : Int := 0
  bits : Bytes := []
  difficulty : Lit := .int false 0
  chainWork : Bytes := []
  previous : Bytes := []
  next : Bytes := []
  deriving DecidableEq, Repr

def Header.step (h : Header) (k : String) (v : Json) : Res Header :=
  if k = "hash" then do return { h with hash := ← asStr h.hash v }
  else if k = "confirmations" then do return { h with confirmations := ← asInt 64 h.confirmations v }
  else if k = "height" then do return { h with height := ← asInt 64 h.height v }
  else if k = "version" then do return { h with version := ← asInt 64 h.version v }
  else if k = "versionHex" then do return { h with versionHex := ← asStr h.versionHex v }
  else if k = "merkleroot" then do return { h with merkleRoot := ← asStr h.merkleRoot v }
  else if k = "time" then do return { h with time := ← asUint 64 h.time v }
  else if k = "mediantime" then do return { h with medianTime := ← asInt 64 h.medianTime v }
  else if k = "nonce" then do return { h with nonce := ← asInt 64 h.nonce v }
  else if k = "bits" then do return { h with bits := ← asStr h.bits v }
  else if k = "difficulty" then do return { h with difficulty := ← asFloat h.difficulty v }
  else if k = "chainwork" then do return { h with chainWork := ← asStr h.chainWork v }
  else if k = "previousblockhash" then do return { h with previous := ← asBytes h.previous v }
  else if k = "nextblockhash" then do return { h with next := ← asBytes h.next v }
  else .ok h

/-- `ScriptSig`, models.go:49-52 -/
structure ScriptSig where
  asm : Bytes := []
  hex : Bytes := []
  deriving DecidableEq, Repr

def ScriptSig.step (s : ScriptSig) (k : String) (v : Json) : Res ScriptSig :=
  if k = "asm" then do return { s with asm := ← asStr s.asm v }
  else if k = "hex" then do return { s with hex := ← asStr s.hex v }
  else .ok s

/-- `Vin`, models.go:55-61 -/
structure Vin where
  coinbase : Bytes := []
  txid : Bytes := []
  vout : Int := 0
  scriptSig : ScriptSig := {}
  sequence : Nat := 0
  deriving DecidableEq, Repr

def Vin.step (i : Vin) (k : String) (v : Json) : Res Vin :=
  if k = "coinbase" then do return { i with coinbase := ← asStr i.coinbase v }
  else if k = "txid" then do return { i with txid := ← asStr i.txid v }
  else if k = "vout" then do return { i with vout := ← asInt 64 i.vout v }
  else if k = "scriptSig" then do return { i with scriptSig := ← asStruct ScriptSig.step i.scriptSig v }
  else if k = "sequence" then do return { i with sequence := ← asUint 32 i.sequence v }
  else .ok i

/-- `ScriptPubKey`, models.go:64-70 -/
structure ScriptPubKey where
  asm : Bytes := []
  hex : Bytes := []
  reqSigs : Int := 0
  type : Bytes := []
  addresses : List Bytes := []
  deriving DecidableEq, Repr

def ScriptPubKey.step (s : ScriptPubKey) (k : String) (v : Json) : Res ScriptPubKey :=
  if k = "asm" then do return { s with asm := ← asStr s.asm v }
  else if k = "hex" then do return { s with hex := ← asStr s.hex v }
  else if k = "reqSigs" then do return { s with reqSigs := ← asInt 64 s.reqSigs v }
  else if k = "type" then do return { s with type := ← asStr s.type v }
  else if k = "addresses" then do return { s with addresses := ← asList (asStr []) v }
  else .ok s

/-- `Vout`, models.go:73-77 -/
structure Vout where
  value : Lit := .int false 0
  n : Int := 0
  scriptPubKey : ScriptPubKey := {}
  deriving DecidableEq, Repr

def Vout.step (o : Vout) (k : String) (v : Json) : Res Vout :=
  if k = "value" then do return { o with value := ← asFloat o.value v }
  else if k = "n" then do return { o with n := ← asInt 64 o.n v }
  else if k = "scriptPubKey" then do return { o with scriptPubKey := ← asStruct ScriptPubKey.step o.scriptPubKey v }
  else .ok o

/-- `TransactionResult`, models.go:80-90 -/
structure Transaction where
  hex : Bytes := []
  txid : Bytes := []
  version : Int := 0
  size : Nat := 0
  vsize : Nat := 0
  weight : Nat := 0
  lockTime : Nat := 0
  vin : List Vin := []
  vout : List Vout := []
  deriving DecidableEq, Repr

def Transaction.step (t : Transaction) (k : String) (v : Json) : Res Transaction :=
  if k = "hex" then do return { t with hex := ← asStr t.hex v }
  else if k = "txid" then do return { t with txid := ← asStr t.txid v }
  else if k = "version" then do return { t with version := ← asInt 32 t.version v }
  else if k = "size" then do return { t with size := ← asUint 32 t.size v }
  else if k = "vsize" then do return { t with vsize := ← asUint 32 t.vsize v }
  else if k = "weight" then do return { t with weight := ← asUint 32 t.weight v }
  else if k = "locktime" then do return { t with lockTime := ← asUint 32 t.lockTime v }
  else if k = "vin" then do return { t with vin := ← asList (asStruct Vin.step {}) v }
  else if k = "vout" then do return { t with vout := ← asList (asStruct Vout.step {}) v }
  else .ok t

/-- `BlockResult`, models.go:27-46 -/
structure Block where
  hash : Bytes := []
  confirmations : Nat := 0
  strippedSize : Int := 0
  size : Int := 0
  weight : Int := 0
  height : Int := 0
  version : Int := 0
  versionHex : Bytes := []
  merkleRoot : Bytes := []
  tx : List Transaction := []
  nTx : Nat := 0
  time : Int := 0
  nonce : Nat := 0
  bits : Bytes := []
  difficulty : Lit := .int false 0
  chainWork : Bytes := []
  previous : Bytes := []
  next : Bytes := []
  deriving DecidableEq, Repr

def Block.step (b : Block) (k : String) (v : Json) : Res Block :=
  if k = "hash" then do return { b with hash := ← asStr b.hash v }
  else if k = "confirmations" then do return { b with confirmations := ← asUint 64 b.confirmations v }
  else if k = "strippedsize" then do return { b with strippedSize := ← asInt 32 b.strippedSize v }
  else if k = "size" then do return { b with size := ← asInt 32 b.size v }
  else if k = "weight" then do return { b with weight := ← asInt 32 b.weight v }
  else if k = "height" then do return { b with height := ← asInt 64 b.height v }
  else if k = "version" then do return { b with version := ← asInt 32 b.version v }
  else if k = "versionHex" then do return { b with versionHex := ← asStr b.versionHex v }
  else if k = "merkleroot" then do return { b with merkleRoot := ← asStr b.merkleRoot v }
  else if k = "tx" then do return { b with tx := ← asList (asStruct Transaction.step {}) v }
  else if k = "nTx" then do return { b with nTx := ← asUint 32 b.nTx v }
  else if k = "time" then do return { b with time := ← asInt 64 b.time v }
  else if k = "nonce" then do return { b with nonce := ← asUint 32 b.nonce v }
  else if k = "bits" then do return { b with bits := ← asStr b.bits v }
  else if k = "difficulty" then do return { b with difficulty := ← asFloat b.difficulty v }
  else if k = "chainwork" then do return { b with chainWork := ← asStr b.chainWork v }
  else if k = "previousblockhash" then do return { b with previous := ← asStr b.previous v }
  else if k = "nextblockhash" then do return { b with next := ← asStr b.next v }
  else .ok b

/-! ### Methods, method.go -/

/-- The bytes of a name. -/
def name (s : String) : Bytes := s.toList.map fun c => UInt8.ofNat c.toNat

/-- An `int` parameter as json.Marshal writes it. -/
def paramInt (i : Int) : Json := .int (decide (i < 0)) i.natAbs

/-- GetBlockHash, method.go:12-23 -/
def getBlockHash (node : Node) (c : Client) (height : Int) : Res Bytes := do
  let r ← call node c (name "getblockhash") [paramInt height]
  unmarshal r (asStr [])

/-- GetBlockCount, method.go:26-37 -/
def getBlockCount (node : Node) (c : Client) : Res Int := do
  let r ← call node c (name "getblockcount") []
  unmarshal r (asInt 64 0)

/-- GetBlockHeader, method.go:40-51 -/
def getBlockHeader (node : Node) (c : Client) (hash : Bytes) : Res Header := do
  let r ← call node c (name "getblockheader") [.str hash]
  unmarshal r (asStruct Header.step {})

/-- GetBlock, method.go:54-66 -/
def getBlock (node : Node) (c : Client) (hash : Bytes) : Res Block := do
  let r ← call node c (name "getblock") [.str hash, .int false 3]
  unmarshal r (asStruct Block.step {})

end Toku.Rpc
