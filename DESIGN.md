# Formal model of keyfuse/tokucore

Lean 4 (4.33.0) with single Mathlib modules. Everything lives in `lean/Verif/`:

* `Verif/Model/*`  – the model, one definition per Go function, each citing file and lines in `/repo`.
* `Verif/Spec/*`   – small independent specifications the theorems refer to.
* `Verif/Proof/*`  – helper lemmas.
* `Verif/Props/*`  – the property theorems only, with `example`s that meet their hypotheses.

The plan below was written before the proofs; the section "Results" records what came out.

## Conventions of the model

* `[]byte` is `List UInt8`. Where the code distinguishes `nil` from empty the model uses `Option`.
* A Go function that may fail is a function into `Res α = ok a | err e | panic`. A Go run-time panic
  (slice bounds, `make` with negative length, nil dereference, explicit `panic`) is the explicit
  third outcome, so "never panics" is a statement about the model and not true by totality.
* `int` is 64 bits. Where wrap-around can be observed (buffer bounds check, `int(len)`, script numbers,
  builder amounts, size arithmetic) the model wraps explicitly; elsewhere `Nat`/`Int`.
* A method that mutates its receiver returns the new receiver. Loops are structural recursions.
  Potentially unbounded loops take fuel (RFC6979 retry) and the theorem is about returned values.
* SHA-256, SHA-512 and HMAC are the standard library's and are parameters with the right output length
  (`Hashes`, `Macs`): theorems hold for every such function. RIPEMD-160 and PBKDF2 are code of the project and
  are modelled. `Model/Sha.lean` defines the real SHA-2; it is used only for test vectors (`Check/Vectors`) and
  for counterexamples that need the actual function.
* Signatures: the transaction and engine theorems hold for every lawful signature scheme; `TxEcdsa` then
  instantiates them with the modelled ECDSA over the modelled curve. Randomness (Paillier primes and
  randomisers, entropy) is a parameter.
* `math/big` integers are `Nat`/`Int`; `big.Int.Mod` is Euclidean (`Int.emod`), `ModInverse`, `Exp`,
  `ModSqrt` are modelled by their documented results.
* Floating point in `EstimateFees` is modelled as IEEE double arithmetic on rationals (round to 53 bits, ties
  to even, then truncation). In the Merkle tree `ceil(log2 n)` is `Nat.clog 2 n`; this assumes that
  `math.Log2` is exact on powers of two and monotone, as the library documents for its method.
* Streams shared by goroutines are a transition system: mutex, bytes that go out in pieces of any size, reads
  and writes that may fail at any time. Theorems are invariants over all runs.

## Trusted base

Lean kernel; axioms `propext`, `Classical.choice`, `Quot.sound` only (some theorems use fewer); the reading of
the Go text into the model. No own axioms, no `sorry`, no `native_decide`/`bv_decide`.

Standard library, taken by its documentation: `math/big` (`Mod` Euclidean, `ModInverse`, `ModSqrt`, `Exp`,
`Jacobi`, `SetBytes`, `Bytes`), `encoding/asn1` (as far as `signature_ecdsa.go` uses it), `encoding/hex`,
`strconv`, `strings` (`strings.Fields` splits at white space, taken byte-wise), `crypto/hmac`, `sha256`,
`sha512`, `crypto/ecdsa.Verify` (modelled as its generic algorithm on the methods of the curve),
`crypto/elliptic.CurveParams` as a record, `sort.Slice` where used, `net.Conn`, `bufio`, `io.ReadFull`,
`encoding/binary`, `sync.Mutex` (excludes; no promise of fairness).

Modelled files: `xbase/*`, `network/network.go` (the constants used), `xvm/*`,
`xcore/address*.go`, `script*.go`, `transaction.go`, `transactionbuilder.go`, `estimate.go`,
`xcore/bip32/*`, `xcore/bip39/*`, `xcrypto/*` with its sub-packages `ecdsa`, `schnorr`, `secp256k1`, `paillier`,
`pbkdf2`, `ripemd160`, `xprotocol/*` except dialling, and `xrpc/` from JSON values on. Every definition cites its lines.

Not modelled: HTTP and the text of JSON, floats (kept as text), TCP sockets, time-outs as durations,
`xerror` formatting, `examples/`, mocks, quality of randomness other than that of `bip39.NewEntropy` (C123), timing side channels, memory exhaustion. Slice aliasing: in most models each `append` result is a
fresh value; the places where the code overwrites or gives out memory it still uses are modelled once more on a heap of
arrays (`Slices`, `SliceBuf`, `SliceCrypto`) and proved to refine the value models or shown not to (C102, C103, C105–C107).

## Plan per property

| id | what is modelled | how it is proved |
|----|------------------|------------------|
| C01–C03 | `xbase/buffer.go` reader/writer with 64-bit wrap | induction over the list of fields; panic witness for ReadVarBytes |
| C04–C06 | `xbase/base58.go` | positional numeral lemmas (digits/ofDigits) + leading zeros |
| C07–C09 | `xbase/bech32.go` | linearity of the checksum over GF(2); invertibility of multiplication by x; finite table for two errors |
| C10–C12 | `xbase/witness.go` | bit-list refinement of the accumulator; panic witness |
| C13 | `xbase/hash.go` | induction |
| C14–C15 | `xvm/scriptnum.go` on 64-bit words | base-256 digits with sign bit |
| C16–C20 | builder, reader, opcode table | case analysis on push forms; induction on script length |
| C21 | `opCheckMultiSig` | greedy = exists sublist matching |
| C22–C28 | whole engine with stacks and conditional stack | invariants; structured-program refinement; witnesses for bypasses |
| C29–C30 | `xcore/script*.go` | case analysis |
| C31–C33 | `xcore/address*.go` | from C04–C12 plus leading-digit bounds |
| C34–C38 | `xcore/transaction.go` codec and sizes | induction over inputs/outputs/witness items |
| C39–C44 | signature hashes with caches, signing, verification | injectivity of the serialisation; state machine over calls |
| C45–C48 | `transactionbuilder.go`, `estimate.go` with int64 wrap | arithmetic under explicit no-overflow hypothesis + witnesses |
| C49–C51 | `bip32/hdkey.go` | group law from C57/C58; string parsing |
| C52–C53 | `bip39/bip39.go` | numerals base 2048 |
| C54–C56 | `merkle.go` | induction on levels; witness at n = 6 |
| C57–C58 | Jacobian formulas over integers mod P | refinement to Mathlib's `WeierstrassCurve.Affine.Point` group; Pratt certificates for P and N |
| C59–C61 | `pubkey.go`, `prvkey.go`, `sec.go` | square roots mod P, byte encodings |
| C62–C67 | `ecdsa`, `rfc6979`, DER, `schnorr` | algebra in `ZMod N` and the group |
| C68–C69 | `paillier` | units of `ZMod (n^2)` |
| C70–C72 | two-party protocols | integer bound (no wrap) + algebra |
| C73–C74 | `ripemd160`, `pbkdf2` | buffer invariant; induction |
| C75–C82 | `xprotocol` | as C01; interleaving state machine for the mutex |
| C83–C86 | identity of transactions, signing calls, fees in doubles, ECDSA instance | composition of the above |
| C87–C88 | BIP 32 keys and BIP 39 seeds against the BIPs | unfolding to a separate specification |
| C89–C90 | repeated phases, what phase 4 reveals | algebra modulo N |
| C91–C94 | payload layout, sizes, header hash, two connected peers | separate wire specification; invariant of two peers |
| C95–C96 | `xvm/scriptbuilder.go` `Load`, `DisasmString` | separate meaning of words; induction over words and tokens |
| C97 | the two-party transaction examples end to end | joint signing as an instance of the scheme of C43 |
| C98–C99 | `xrpc/` | answers as JSON values; decoders folded over the members; round trips of what a node writes; base64 |
| C100 | `xcore/transaction.go:817-874` | text built line by line; the lines determine the inputs and outputs; `%.2f` and error texts are parameters |
| C101 | `xvm/engine.go` (debug), `xvm/trace.go` | engine with its log refines the engine without; records told by a separate relation; text of a stack read back |
| C102–C103 | `xvm/engine.go:98`, `xvm/stack.go` | heap of arrays with slices (array, offset, length); frame lemmas for `append`; refinement to the lists of Model/VM |
| C104 | `xvm/stack.go`, `xvm/engine.go`, all handlers | each handler commutes with elements appended below, unless it fails for a missing element |
| C105 | `xbase/buffer.go`, `xvm/scriptbuilder.go:43-124` | buffer as a slice of the same heap; frame: writes reach only cells behind the buffer; refinement to Model/Buffer and Model/Script; Reset gives the cells back |
| C106–C107 | `xcrypto/ecdsa/rfc6979.go`, `xcrypto/pbkdf2/pbkdf2.go` | the same heap; invariant: two slices of different arrays, all older memory unchanged; refinement to Model/Ecdsa and Model/Pbkdf2 |
| C108–C109 | `xcore/transactionbuilder.go`, `xcore/transaction.go`, `xcore/bip32/hdkey.go`, `xcore/address.go` | composition: what the builder does is a list of SignIndex calls with the hypotheses of C43 (C84, C86); C49, C50, C51 and C31 give the key of the address |
| C110 | `xprotocol/connection.go` over `stream.go` | state machine of the loop above the one of the stream; invariants for what each goroutine may be in and for what has been handed over; projection to runs of the stream (C80) |
| C111 | `xvm/engine.go`, `xcore/transaction.go` SetTxIn and Verify | skipped execution of any token sequence under enough open conditionals; simulation of the engine with the transaction's caches; frame lemma for Verify |
| C112 | `xvm/engine.go` Verify | two simulations: a run above executed conditionals, and a run above skipped ones |
| C113 | `xcrypto/mpc_ecdsa.go`, `scriptless_ecdsa.go`, `mpc_schnorr.go` as objects | invariant of closed objects over all sequences of calls; algebra modulo N for the leak |
| C114 | `xcore/transaction.go` `Deserialize`, `DeserializeNoWitness`, `Verify` on one object | two runs of the stateful engine side by side (`Proof/VMSLock`) |
| C115 | `xcore/transaction.go` `Deserialize`, `DeserializeNoWitness` with the object they leave (`Model/TxObj`: slices of pointers that may be nil) | what each prefix of the bytes of a transaction gives, part by part (`Short` in `Proof/TxObj`) |
| C116 | `xcrypto/mpc_ecdsa.go`, `mpc_schnorr.go`: `party.hash = hash` keeps the caller's slice (`Model/PartyMem`: a party beside a memory the caller may store in) | none; the calls by value are those of C113 |
| C117 | `xcore/transaction.go` `EmbedIdxEcdsaSignature` with the memory of the signature (`Model/TxMem`) | the same calls with the bytes at the time of the call (`byValue`) |
| C118 | `Bech32Encode`, `GetK0`, `GetE`, `Sum` with the memory of the argument they append to (`Model/ArgMem`) | which bytes change (`WroteBehind`) |
| C119–C120 | `xcrypto/mpc_schnorr.go`, `mpc_ecdsa.go` phase 1; phases 2 and 4 beside ordinary signing | group law (C61); algebra modulo N |
| C121 | `xcore/transaction.go` SetTxIn, SerializeNoWitness, Verify; `script_p2wpkh_v0.go` WitnessToUnlockingScriptBytes; `xcrypto/ecdsa` Verify | two runs of the engine side by side (`VMS.Lock`); what the engine does below (C104); group law |
| C122 | `xcore/bip32/hdkey.go` Derive, getIntermediary, HDPublicKey | private and public derivation side by side along a list of indices; arithmetic modulo N |
| C123 | `xcore/bip39/bip39.go` NewEntropy, NewBIP39 with the generator of Go's math/rand (`Seed`, `Uint64`, `Read`; its table of constants is a parameter) | the seed is reduced modulo 2^31 - 1; closed form of the state; counting |
| C124 | `xvm` engine against Spec/Bitcoin (EvalScript, VerifyScript of the reference implementation as relations, with a set of rules as parameter) | exact simulation in both directions for one opcode, one token, a script, `Verify`; comparison of sets of rules; witnesses where they differ |
| C125 | `genMultiSig`, `rawUnlocking`, `witnessUnlocking` against Spec/Bitcoin under `consensus` | evaluation of lists of pushes (and its inversion), CHECKMULTISIG from an ordered matching; for the negations: what pushes leave has at most 520 bytes, and a token list is determined by its bytes |
| C126 | `signIndex`, `serialize`, `build` with secp256k1 against Spec/Validity (wire form, both signature hashes for all types, BIP66, validity of an input) | what every input holds after all calls (invariant over the calls, caches included), the hashes of the library as those of Bitcoin for the types allowed, DER forms, C125 |
| C127 | `deserialize`, `deserializeNoWitness`, `setTxIn`, `verify` with secp256k1 against Spec/Validity, starting from the bytes of a transaction of Bitcoin | what parsing and SetTxIn leave of it, the verdict on one input in every state that the caches can be in (invariant over the loop of Verify), the two signature checks agree on BIP66 signatures |
| C128 | as C127, with P2SH and P2WSH coins: `opCheckMultiSig`, `verifyScript` through the redeem script, `witnessToUnlocking` with `isMultiSig` | the run of an m-of-n script in the engine and in the rules of Bitcoin are both characterised by an order-preserving matching of signatures to keys; the signature checks of C127; invariant over the loop of Verify; any redeem script: the simulation of C124 between the rules and the engine, with the checks of signatures exchanged |
| C129 | `swap`, `swapSending` (the exchange when Bob sends any ciphertext in phase 4), `Ecdsa.verify` | all accepted s for one r are equal up to sign, from the group law and the order of the curve; the exchange as in C72 |
| C130 | `against`, `againstBob` (a party with any counterpart): `phase1`, `phase2With`, `phase3`, `phase5`, `decrypt` | the decrypted number decides; accepted exactly for the two numbers given by the equation of the signature, from the group law |
| C131 | `verify`, `fees`, `build` | two runs of Verify in lock step on transactions that differ in the amounts of legacy coins; sums modulo 2^64; the inputs of a built transaction are the coins given |
| C132 | two `Connection`s over one wire, `Model/Link.lean` | product of two machines of C110; invariant of two waiting loops (one side gives up before anything is handed over, and a loop that has given up receives nothing); projection to runs of two streams for the order (C94) |
| C133 | `SchnorrParty.phase5` | exact: the equation of verification for the sum of the parts (C67), uniqueness of the point with a residue for y |
| C134 | `GetAddress`, `Model/ScriptAddress.lean` | C29 (parsing is exact) and C31 (text round trip) composed |
| C135 | `EcdsaParty.phase1`, `SchnorrParty.phase1` to `phase5` | the shared points are d1·d2·G and d1·G + q; the order of G is N, so d1·d2·G = d1·G only for d2 = 1 |
| C136 | `NewMerkle`, `Root` for two lists of different lengths | the ways up from the leaves with one number have the same sides if the trees have the same number of rows (C56); induction over the rows for the repeated leaf |
| C137 | `SetLockTime`, `NewTxIn`, `BuildTransaction`, `SignIndex`, `Serialize` against IsFinalTx of the reference client | shape of a built transaction (C45/C47), signing leaves lock time and sequences alone |
| C138 | `BuildTransaction` against the output rules of IsStandardTx (Spec/Relay) | outputs of a built transaction (C47); sizes of the four scripts and of the data script |
| C139 | `To`, `BuildTransaction`, the constructors of addresses, against the validity of inputs in Bitcoin (C126) | outputs of a built transaction (C47), inversion of the four standard scripts |
| C140 | `BuildTransaction` against CheckTransaction of the reference client (Spec/Check) | outputs and outpoints of a built transaction (C47, C131), conservation of value (C45, C46) |
| C141 | `SetRelayFeePerKb`, `BuildTransaction`, `EstimateSize`, `EstimateFees` against the virtual size of the signed transaction | estimates (C48, C85), conservation of value (C45), outputs of a built transaction (C47) |

## Results

`MANIFEST.json` lists the theorems of each property. Where the code does what the property says, the theorem is
the property for all inputs. Where it does not, three kinds of theorems stand in its place: `_negation` with a
concrete witness, `_partial` with the part that holds, and, where it could be found, an `_iff` that says exactly
when the property holds. These are the disagreements between code and property:

| id | what the code does |
|----|--------------------|
| C03 | `ReadVarBytes` panics when the declared length reaches position 2^63 (the bounds check wraps) |
| C12, C33 | `WitnessDecode`, and so `DecodeAddress`, panics on a valid Bech32 text without data, e.g. `bc1gmk9yu` |
| C14 | the script number −2^63 cannot be encoded (panic) |
| C16, C17 | data `00` and `81` are pushed as numbers that read back differently; `AddInt64(-1)` writes an opcode that cannot be read |
| C20 | `OP_CODESEPARATOR` cannot be parsed, so it is never removed |
| C22 | negative counts, empty signatures or missing callbacks make `CHECKMULTISIG` panic |
| C23 | an unlocking script `OP_0 OP_IF` spends any P2PKH output: the conditional stays open and skips the locking script; proved for every unlocking script that ends in a skipped branch; the exact condition for all unlocking scripts is C23_iff |
| C25 | P2SH with one or two pushes does not run the redeem script; the exact condition for all unlocking scripts is C25_iff |
| C27, C28 | the engine keeps state between scripts; `OP_RETURN` does nothing: such an output is spendable exactly if the rest of its script is a sequence of instructions |
| C30 | multisig scripts with m = 0 (anyone can spend) and with negative m are generated; the least `int` panics, and for -2^31 < m < -1 checking a spend panics (`C30_generated_exact`, `C30_nonpositive`) |
| C32 | a second separator makes one witness program have two texts |
| C36 | deserialising and serialising drops the witness, because `HasWitness` looks at the locking script; no deserialised transaction serialises back to its bytes (C36_never) |
| C38 | `BaseSize`, `Size`, `Vsize` are off by the formulas proved |
| C40 | legacy hashes of every type but ALL cover only version, lock time and type |
| C41 | holds for SIGHASH_ALL and NONE; for SINGLE the hash covers no output at all (`C41_single_ignores_outputs`) |
| C42, C43 | cached hash parts are stale after a change of type class or an added output (`C42_exact` gives the bytes hashed after any history); signing a mismatched P2WSH reports success |
| C44 | a P2WSH program is spent with an unrelated multisig script and no signature |
| C45, C46 | amounts from 2^63 on are taken for negative numbers |
| C48 | transactions with witness inputs are underestimated; C48_mixed gives the exact difference |
| C49, C50, C87 | the refusals of BIP 32 are missing (left half ≥ N, key 0, depth 255); the text of key 0's public part is refused |
| C51 | `m/` panics; `m/2147483648'` is child 0 |
| C53, C88 | tab-separated words are accepted with any checksum by `MnemonicToByteArray` and `NewSeedWithErrorChecking` |
| C55, C56 | the root differs from Bitcoin's for every number of leaves not of the form 2^d - 2^j + 1 (proved in general up to collisions, and outright for six leaves); six leaves prove 32 zero bytes; leaf bytes after the 32nd are ignored |
| C60 | prefix 5 is accepted for uncompressed keys |
| C65 | trailing bytes in and after a DER signature are accepted |
| C66, C67 | signatures whose challenge is 0 modulo N are refused, and with challenge 0 others are accepted that do not satisfy the equation; s = N and a padding byte are accepted; short inputs panic |
| C68 | the randomiser may be 0 or share a factor with n |
| C70, C72 | r is not reduced modulo N; the published low s gives Alice t or N − t |
| C71 | each party uses its own point in the Schnorr challenge |
| C75, C76 | `getheaders` loses its stop hash and gains a locator; ping and pong arrive as unknown messages; long commands are cut |
| C77 | frames of other networks are accepted |
| C78 | batches exceed the limits of `inv` and `headers` |
| C79, C82 | a 9-byte `reject` payload or an 89-byte `version` payload crashes the process |
| C81 | a reader holds the lock while it waits: writers of the same stream wait, and two peers that both read block each other |
| C110 | therefore a `Send` waits until the next message comes, if it is not made by a handler; after `Close` one more message may be handed over |
| C111 | (exactly what is accepted for P2PKH and P2SH coins: C111_received_legacy_iff) anyone can spend every P2PKH, P2SH and P2WSH coin with the unlocking script `OP_0 OP_IF`, with any signature scheme (C111_forged, also from the wire); inputs spending P2WPKH coins need a key and a good signature, because SetTxIn makes their unlocking script from two witness items; inputs spending P2WSH coins with three or more witness items, the last a multisig script, need the signatures (C111_received_p2wsh_partial) |
| C113 | a phase 2 that fails for want of random numbers returns nil pointers and leaves the new hash with the nonce of the old one; going on with phase 4 then gives the private key to the counterpart (two hashes, one nonce). `Close` does not clear Bob's secret or the bytes of the key, but nothing returned afterwards depends on them |
| C114 | `Deserialize` into a used object keeps its digest caches, and its inputs or outputs where the bytes have none. After a transaction that spends P2WPKH coins has been accepted, the same transaction with any other outputs read into the same object is accepted with the old signatures (`C114_negation`); an empty transaction read into an object leaves the old inputs and outputs (`C114_negation_empty`) |
| C115 | A failed `Deserialize` changes the object: the version becomes zero with no bytes at all (`C115_negation_version`); cut anywhere in its inputs or outputs a transaction leaves nil pointers, and `HasWitness`, `Serialize`, `SerializeNoWitness`, `Hash`, `BaseSize` and `Fees` then panic (`C115_negation`, `_segwit`, `_outputs`), even after a later read of an empty transaction has succeeded (`C115_negation_later`). The exact object left is `C115_left_legacy` and `C115_left_segwit`; reading a transaction with inputs and outputs repairs it (`C115_recovery`) |
| C116 | A party keeps the slice of the hash, not its bytes. A caller that uses that memory for the next hash after phase 2 makes the party sign two hashes with one nonce; a counterpart that follows the protocol then computes the private key (`C116_negation`, `C116_schnorr_negation`). With no store in the bytes of the hash the results are those of the calls by value (`C116_partial`). |
| C117 | `append(ecdsaSig, byte(hashType))` writes the hash type behind the caller's signature if there is room: of two signatures next to each other the second is spoilt (`C117_negation_next`). The witness of a P2WPKH or P2WSH input then holds the caller's memory: with one buffer for all signatures every input carries the last one, Verify accepts the transaction before it is sent and the receiver refuses it (`C117_negation_reuse`, `C117_negation_sent`). Without spare capacity, and for P2PKH and P2SH coins, all is well (`C117_full_partial`, `C117_legacy_partial`). |
| C118 | the four functions write behind their argument if there is room. `GetE` reads the message after that: a message behind `rX` in the same array is overwritten by the public key first, and the challenge does not depend on it (`C118_e_negation`). The callers in the repository pass slices that fill their arrays. |
| C119 | the shared Schnorr key is the sum of the two public keys: a counterpart that presents xG minus the party's key makes the shared key xG and signs alone (`C119_negation`). For ECDSA the shared key is a product; holding its private key comes with an equation for the party's key (`C119_ecdsa_partial`) |
| C120 | the nonce of a run is that of an ordinary signature of the same message; both together give the private key away |
| C121 | SetTxIn overwrites the script of a received P2WPKH input and reads two witness items: any script in that field (BIP141 wants none) and any further items are accepted, and ID of what was received changes with the script. Scripts of P2PKH inputs can get a push in front; (r, N - s) and signatures with trailing bytes are accepted in place of (r, s). With witness inputs only, the identifier after SetTxIn is fixed by what is signed (`C121_identifier_partial`) |
| C122 | A non-hardened child's private key is the parent's plus a number that the parent's extended public key gives. `climb` (Props/HDLeak.lean) computes the whole extended private key of an account from its extended public key and one descendant's private key, for every list of non-hardened indices; the package documents no such limit (BIP32 does). |
| C123 | NewEntropy seeds math/rand with the clock: whatever the size, at most 2^31 - 2 different entropies exist, calls 2147483647 ns apart return the same one, and so do NewBIP39 and Seed. |
| C124 | The engine follows Bitcoin's rules with these differences, all proved: no limits on sizes and counts; an empty final stack is accepted; OP_RETURN does nothing; conditionals may stay open; a redeem script with at most one element below it is not run; three or more elements left make the engine run the last pushed one as a script; numbers and conditions have to be minimal; the extra element of CHECKMULTISIG may be anything (BIP147 wants it empty). |
| C125 | True for P2PKH, P2WPKH, P2SH up to 520 bytes of script, P2WSH up to 20 keys. False above: for 16 or more compressed keys the library makes a P2SH address, and its engine accepts the spend, but by Bitcoin's rules no unlocking script spends it (barring a hash collision): the coins are lost. The same for P2WSH with more than 20 keys. |
| C126 | True for ALL in legacy inputs, and for ALL and NONE with or without ANYONECANPAY in witness inputs, signed in an order in which none covers something that an earlier one did not. False for every other legacy type (NONE shown), for SINGLE in witness inputs, for a P2PKH coin with a redeem script, and for a witness input signed with ALL after one signed with NONE (the cached digests are zeros): the library signs and its Verify accepts, and Bitcoin refuses the transaction; concrete transactions with the real hash functions are given. |
| C127 | True for coins of key hashes that are spent in the usual form (signature of BIP66 form, key not of prefix 5, legacy inputs with ALL, witness inputs with ALL or NONE, with or without ANYONECANPAY, none covering more than an earlier one). False in both directions otherwise, with concrete transactions: NONE in a legacy input, SINGLE in a witness input and ALL after NONE are valid and refused; a key with prefix 5, a script beside the witness, bytes after the signature and an ALL signature for zeros in place of the outputs (also when the outputs are replaced) are accepted and not valid. |
| C128 | True for m-of-n spendings in the usual form (as C127, and no signature is one of the keys, the redeem script given is that of the coin). Inputs of P2SH coins of any other redeem script of the opcodes it knows, and P2PKH coins opened by other pushes, may be among them if they keep stricter rules (minimal numbers, hash type ALL). False otherwise, with concrete transactions: a P2WSH witness script that is not the one of the coin, an extra element that is not empty (BIP147), and a witness with an item too many, are accepted and not valid. Every valid spending of a P2WSH coin whose script is not a multisig script is refused, hash locks for example: SetTxIn does not look at its witness. |
| C129 | True if Bob follows the protocol, up to the sign of the secret, and for points with P - N <= x < N. False otherwise: Alice checks nothing of what she gets in phase 4; a Bob who sends an encryption of 0 there publishes an accepted signature and leaves Alice with 0. |
| C130 | False: phase 5 never checks the signature it has put together. For all keys and nonces the encryption of 1 or of 2 in place of the counterpart's part makes a party report a signature that is refused (C130_negation). |
| C131 | False: Verify looks at scripts only. Without inputs everything is accepted (C131_negation_nothing), amounts of P2PKH and P2SH coins are never read (C131_legacy_amounts), a coin given twice to the builder is spent twice, counted twice and accepted (C131_negation_twice), and Fees wraps (C131_negation_fees). |
| C132 | False: if both loops wait before either has sent, no schedule hands a message to both sides (C132_negation_talk, C132_negation): Send waits for the lock that the loop holds, and the first loop to give up never reads again. It works if the one who speaks first sends before it starts its loop (C132_answer_partial, C132_catches_up_partial). |
| C133 | False: phase 5 never fails; of the three answers "no bytes", "the byte 1" and "the byte 2" at least one always makes the party report a refused signature (C133_negation_any). C133_exact and C133_exact_zero say exactly when what is reported is accepted. |
| C135 | False: with ECDSA the shared key is the party's own key exactly if the counterpart has the private key 1, who then ends the run with a signature under the party's own key (C135_ecdsa_iff, C135_negation). With Schnorr this needs the object with coordinates 0 and 0 as key and point of the counterpart, which no text gives; phase 4 then hands out the ordinary signature (C135_schnorr_partial, C135_negation_schnorr). |
| C136 | True for trees with the same number of rows up to leaves at the end (one list is the beginning of the other, or a collision is found). False otherwise: a last leaf repeated to fill the tree (as in Bitcoin, CVE-2012-2459), a row of hashes taken for the leaves, and, unlike Bitcoin, a leaf of zeros after six leaves, give the same root. |
| C137 | False for every builder configuration: the builder gives every input the sequence number 0xffffffff, which switches the lock time off; the lock time is carried in the transaction but no block has to wait for it. A transaction put together by hand waits exactly if it has a lock time and one input with a lowered sequence number. |
| C138 | Exactly when: every payment and the change reach 546, 540, 294 or 330 satoshi by kind of address, and there is at most one piece of data, of at most 80 bytes. The builder checks none of it: change of one satoshi is paid out instead of going to the fee. |
| C139 | True for payments to an address. False for a nil address: the output gets an empty script, without an error, and everyone can spend it with OP_1. The constructors of addresses return nil without an error for a hash of the wrong length, so that To(NewPayToScriptHashAddress(sha256), amount) gives the amount away. |
| C140 | Exactly when: coins different and real, outputs of at most 21 million coins in total, at most a million bytes without witnesses. Only the presence of inputs and outputs is checked by the builder. With different, real coins, payments below 2^63 and a fee that is not negative the amounts are right by themselves. |
| C141 | False for every transaction that spends witness coins only (the estimate leaves out 41 bytes for every witness input and the signatures; rates from 26) or with at most twenty usual legacy coins each (rates from 67), and for usual P2PKH spendings with change (the change output is not counted; rates from 34) or data (only the bytes of the data are counted; rates from 112). True to two satoshi for legacy inputs without change and data, and no more payments than inputs. |
| C89 | phase 4 of two-party Schnorr changes the nonce, so a second call differs and gives the key away |
| C90 | one run of phase 4 gives the key to a counterpart that encrypts 2^512; two honest runs for one hash do too; a Schnorr party answers for X and for -X with the same nonce, and the sum of the answers is 2 e d |
| C91 | ports in `version` are little-endian, the address is text |
| C92 | `Size` of verack, reject, unknown and empty getheaders is wrong |
| C95 | a quoted word with malformed hexadecimal pushes the part before the error; the integer −2^63 panics |
| C96 | pushed data in a disassembly is read back as numbers, or not at all; the empty script's text is refused |
| C97 | the P2PKH example runs phase 4 with the wrong ciphertext and does not look at the result of Verify; its signature is refused |
| C98 | an answer with neither result nor error makes every RPC call panic: the nil `Result` is dereferenced |
| C99 | `PreviousBlockHash` and `NextBlockHash` of headers are `[]byte`, so the 64 hexadecimal digits a node sends are decoded as base64 into 48 wrong bytes; `Confirmations` of blocks is unsigned, so a block outside the best chain (−1) is refused; missing members are not noticed |
| C100 | `ToString` panics for a transaction with an unsigned witness input (`in.Witness[0]`); only the first witness item is shown; version, lock time and sequence numbers are not; for a transaction read from its wire format the fee shown is minus the total of the outputs and witnesses are not shown |
| C101 | instructions skipped in an unexecuted branch get records like executed ones; the counter also runs in the first pass over the unlocking script, which makes no records, so the records of a fresh engine do not start at step 1; the empty stack and the stack with one empty item print the same |
| C102 | `Verify` writes the locking script behind the unlocking script when that has spare capacity: other slices of the same array, also the locking script, may change, and a second call may then give another verdict |
| C105 | a script taken from a builder is the builder's own memory: after `Reset` every opcode added overwrites it byte by byte; `AddData` of that script after `Reset` adds it with its first byte replaced by its length; Verify on a script taken early overwrites what the builder added later |

`Verif/Check` runs the model on the test data of /repo: published vectors and those of the tests (`Vectors`), the tables
of the tests about texts, numbers, scripts and addresses (`Texts`), the transactions of
`xcore/testdata/tx.json` (`Txs`), builder tests from seed to transaction identifier (`Build`), the
scripts of `xvm/testdata/vm.json` (`Engine`), and the vectors of the tests of hashes, Merkle trees, keys, curve points and
block headers (`Crypto`). These compare model and code on
samples; they are not properties.

`seeded/LOG.jsonl` records the wrong programs tried against the theorems.
