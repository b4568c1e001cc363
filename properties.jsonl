{"id": "C01", "title": "Buffer primitives round-trip in any sequence", "statement": "Writing any sequence of values with WriteU8/WriteU16/WriteU32/WriteU64/WriteVarInt/WriteBytes/WriteVarBytes/WriteVarString and then reading the same sequence of kinds from the resulting bytes (with any bytes following) returns exactly the written values, in order, and leaves the reader positioned exactly at the following bytes. Values passed to WriteU16 come back modulo 2^16.", "quantifier": "every finite sequence of writes, every value of every kind, every trailing byte string (total length below 2^63)", "why_tests_cant": "The space of interleavings of field kinds and boundary values (0xfc/0xfd/0xffff/0x10000/2^32...) is infinite; tests sample a handful of fields in isolation.", "anchors": ["xbase/buffer.go: Buffer.WriteU8..WriteString, Buffer.ReadU8..ReadVarString"]}
{"id": "C02", "title": "VarInt encoding is the shortest form and has the advertised size", "statement": "WriteVarInt(v) produces exactly VarIntSerializeSize(v) bytes, uses the shortest of the four Bitcoin CompactSize forms, different values never produce encodings one of which is a prefix of the other, and ReadVarInt returns v. ReadVarInt itself does not insist on the shortest form.", "quantifier": "every uint64 value (and every pair of values)", "why_tests_cant": "2^64 values, with off-by-one boundaries at each size class; prefix-freeness ranges over pairs.", "anchors": ["xbase/buffer.go: WriteVarInt, ReadVarInt, VarIntSerializeSize"]}
{"id": "C03", "title": "Buffer reads never run past the data and never panic", "statement": "Reading any field from any byte string at any position either returns exactly the bytes at that position and advances by the field's length, or returns an error; it never panics and never returns bytes that are not in the input.", "quantifier": "every byte string, every read position, every kind of read", "why_tests_cant": "Attacker-chosen length prefixes range over all 64-bit values; overflow of seek+length only appears at lengths near 2^63 that no test uses.", "anchors": ["xbase/buffer.go: Buffer.check, ReadBytes, ReadVarBytes, ReadVarString"]}
{"id": "C04", "title": "Base58 decode inverts encode", "statement": "Base58Decode(Base58Encode(b)) == b for every byte string b, including any number of leading zero bytes; hence two different byte strings never share a Base58 text.", "quantifier": "every byte string of any length", "why_tests_cant": "Unbounded-length big-number base conversion; leading-zero handling interacts with every length.", "anchors": ["xbase/base58.go: Base58Encode, Base58Decode"]}
{"id": "C05", "title": "Base58 text is canonical", "statement": "For any string made only of Base58 alphabet characters, Base58Encode(Base58Decode(s)) == s, so two different Base58 texts never decode to the same bytes; a string containing any other character decodes to the empty byte string.", "quantifier": "every string", "why_tests_cant": "Quantifies over all strings of all lengths; a collision between two texts would not be met by sampling.", "anchors": ["xbase/base58.go: Base58Encode, Base58Decode"]}
{"id": "C06", "title": "Base58Check accepts exactly correctly checksummed payloads", "statement": "Base58CheckDecode(Base58CheckEncode(payload, version)) returns (payload, version); conversely whenever Base58CheckDecode(s) succeeds with (payload, version), s is exactly Base58CheckEncode(payload, version); a text whose last four decoded bytes differ from the checksum of the rest is rejected with a checksum error.", "quantifier": "every payload, every version byte, every string", "why_tests_cant": "Both directions range over unbounded strings; the converse direction (no other text is accepted) cannot be sampled.", "anchors": ["xbase/base58.go: Base58CheckEncode, Base58CheckDecode"]}
{"id": "C07", "title": "Bech32 decode inverts encode", "statement": "For every human-readable part of 1..83 lower-case printable ASCII characters and every list of 5-bit values, if the total length is between 8 and 90, Bech32Encode succeeds and Bech32Decode of the result returns the same human-readable part and values.", "quantifier": "every valid human-readable part and 5-bit list with total length 8..90", "why_tests_cant": "The checksum must verify for every input; there are more than 32^80 data parts.", "anchors": ["xbase/bech32.go: Bech32Encode, Bech32Decode"]}
{"id": "C08", "title": "Bech32 decoding is canonical and checks everything it should", "statement": "Whenever Bech32Decode(s) succeeds with (hrp, data): s has 8..90 characters, does not mix cases, every data value is below 32, and Bech32Encode(hrp, data) is s in lower case. So for each (hrp, data) exactly one lower-case text is accepted.", "quantifier": "every string", "why_tests_cant": "The converse direction (nothing else is accepted) quantifies over all strings.", "anchors": ["xbase/bech32.go: Bech32Decode, bech32VerifyChecksum"]}
{"id": "C09", "title": "Bech32 detects every one- and two-character data error", "statement": "Changing any one, or any two, characters of the data part of an accepted lower-case Bech32 text (of at most 90 characters) to other Bech32 characters gives a text that Bech32Decode rejects.", "quantifier": "every accepted text, every choice of positions, every replacement characters", "why_tests_cant": "Error-detection is a statement about all codewords and all error patterns; exhaustive testing over texts is impossible.", "anchors": ["xbase/bech32.go: bech32Polymod, bech32VerifyChecksum, Bech32Decode"]}
{"id": "C10", "title": "8-to-5-bit regrouping is lossless and strict", "statement": "Regrouping any byte string from 8 to 5 bits with padding and back from 5 to 8 bits without padding returns the original bytes; 5-to-8 regrouping without padding succeeds only on lists that are the padded regrouping of their result (leftover bits fewer than five and all zero).", "quantifier": "every byte string; every list of 5-bit values", "why_tests_cant": "Unbounded lengths; the accumulator in the code is never masked and overflows its machine word for inputs longer than 8 bytes.", "anchors": ["xbase/witness.go: convertBits"]}
{"id": "C11", "title": "Witness program text round-trips", "statement": "WitnessDecode(WitnessEncode(hrp, version, program)) returns (hrp, version, program) for each valid lower-case hrp, version 0..31 and program whose text fits in 90 characters; and a text accepted by WitnessDecode re-encodes to its lower-case self.", "quantifier": "every hrp, version, program; every accepted text", "why_tests_cant": "Combines the checksum, the regrouping and the character set over unbounded inputs.", "anchors": ["xbase/witness.go: WitnessEncode, WitnessDecode"]}
{"id": "C12", "title": "Decoding untrusted witness text never panics", "statement": "WitnessDecode(s) returns a value or an error for every string s; it does not panic.", "quantifier": "every string", "why_tests_cant": "Only strings with a valid checksum reach the failing line, so random or fuzzed strings miss it.", "anchors": ["xbase/witness.go: WitnessDecode"]}
{"id": "C13", "title": "Transaction and block identifiers round-trip through display text", "statement": "NewIDFromString(NewIDToString(id)) == id for every byte string id, and for every even-length hexadecimal text s, NewIDToString(NewIDFromString(s)) is s in lower case; odd-length or non-hexadecimal text is rejected. The display text is the byte-reversed hexadecimal.", "quantifier": "every byte string; every string", "why_tests_cant": "Unbounded inputs, both directions.", "anchors": ["xbase/hash.go: NewIDFromString, NewIDToString"]}
{"id": "C14", "title": "Script numbers round-trip", "statement": "For every 64-bit integer n, the bytes of the script number n decode (with an 8-byte limit) back to n; zero is the empty string.", "quantifier": "every int64", "why_tests_cant": "2^64 values with sign-bit carry at every byte boundary; the failing value is a single point.", "anchors": ["xvm/scriptnum.go: ScriptNum.Bytes, MakeScriptNum"]}
{"id": "C15", "title": "Script number decoding is canonical", "statement": "With a length limit L (1..8), a byte string is accepted as a number exactly when it is the script-number encoding of some integer and has at most L bytes; in particular two different byte strings never decode to the same number, and with L=4 the accepted numbers are exactly -(2^31-1)..2^31-1.", "quantifier": "every byte string, every limit 1..8", "why_tests_cant": "Quantifies over all byte strings (rejection of every non-minimal form).", "anchors": ["xvm/scriptnum.go: MakeScriptNum"]}
{"id": "C16", "title": "Data pushes push the data", "statement": "For every byte string d (shorter than 2^32), parsing the script built by AddData(d) gives one push instruction and executing it leaves exactly d on top of the stack, using the shortest push opcode form.", "quantifier": "every byte string", "why_tests_cant": "Opcode form changes at lengths 0,1,75,76,255,256,65535,65536 and for special one-byte values.", "anchors": ["xvm/scriptbuilder.go: ScriptBuilder.AddData; xvm/scriptreader.go: NextInstruction; xvm/instruction_pushdata.go"]}
{"id": "C17", "title": "Number pushes push the number", "statement": "For every integer n with |n| < 2^31, executing the script built by AddInt64(n) leaves on the stack an element that reads back as n.", "quantifier": "every integer in the 32-bit script range", "why_tests_cant": "4 billion values with special opcode forms for -1, 0 and 1..16.", "anchors": ["xvm/scriptbuilder.go: AddInt64; xvm/stack.go: PopInt"]}
{"id": "C18", "title": "Script parsing is lossless", "statement": "If a byte string parses as a script, re-serialising the parsed instructions gives back exactly the same bytes; it fails to parse exactly when some instruction's opcode is not supported or its push data is truncated.", "quantifier": "every byte string", "why_tests_cant": "All byte strings, with nested length prefixes (1, 2 and 4 bytes).", "anchors": ["xvm/scriptreader.go: NextInstruction, AllInstructions; xvm/instruction.go: Instruction.bytes"]}
{"id": "C19", "title": "Concatenated scripts parse as the concatenation", "statement": "If a byte string a parses as a script, then a followed by b parses exactly when b parses, and gives a's instructions followed by b's: locking script bytes can never be swallowed by a parseable unlocking script.", "quantifier": "every pair of byte strings", "why_tests_cant": "Ranges over all pairs of scripts; this is what makes concatenation-based verification meaningful.", "anchors": ["xvm/scriptreader.go: AllInstructions; xvm/engine.go: Engine.Verify"]}
{"id": "C20", "title": "RemoveOpcode removes the opcode and nothing else", "statement": "RemoveOpcode(script, op) returns the script with every instruction whose opcode is op removed and all other instructions unchanged in order; it is idempotent; in particular OP_CODESEPARATOR is removed before hashing.", "quantifier": "every script, every opcode", "why_tests_cant": "All scripts; data bytes that happen to equal the opcode must survive.", "anchors": ["xvm/scriptreader.go: RemoveOpcode; xcore/transaction.go: RawSignatureHash"]}
{"id": "C21", "title": "CHECKMULTISIG accepts exactly order-preserving matchings", "statement": "OP_CHECKMULTISIG with public keys K and signatures S (each non-empty) pushes true exactly when there is an order-preserving assignment of all signatures to distinct keys such that every signature verifies under its key.", "quantifier": "every list of keys, every list of signatures, every verification oracle", "why_tests_cant": "The greedy scan's equivalence with existence of a matching is a statement about all lists and all verification relations.", "anchors": ["xvm/instruction_crypto.go: opCheckMultiSig"]}
{"id": "C22", "title": "Script execution never panics", "statement": "Verify and Execute return a result or an error for every pair of scripts and never panic.", "quantifier": "every pair of byte strings, every signature hasher and verifier", "why_tests_cant": "The failing inputs are specific stack contents (negative key count, empty signature) reached only by hand-made scripts.", "anchors": ["xvm/engine.go: Engine.Verify; xvm/instruction_crypto.go: opCheckMultiSig; xvm/stack.go"]}
{"id": "C23", "title": "A pay-to-pubkey-hash output cannot be spent without a signature", "statement": "If Verify succeeds for the locking script DUP HASH160 h EQUALVERIFY CHECKSIG with any unlocking script, then some public key hashing to h and some signature valid under that key were provided.", "quantifier": "every unlocking script, every hash, every signature oracle", "why_tests_cant": "Security against every unlocking script an attacker may write; tests only try well-formed ones.", "anchors": ["xvm/engine.go: Engine.Verify, execute; xvm/instruction_flowcontrol.go"]}
{"id": "C24", "title": "A valid pay-to-pubkey-hash unlocking script is accepted", "statement": "For every public key and signature that verifies, the unlocking script made of the two pushes satisfies the locking script of the key's hash.", "quantifier": "every signature of 9..75 bytes and key of 33 or 65 bytes, every oracle under which they verify", "why_tests_cant": "All keys and signatures, all oracles.", "anchors": ["xvm/engine.go: Engine.Verify; xcore/script_p2pkh.go"]}
{"id": "C25", "title": "A pay-to-script-hash output runs its redeem script", "statement": "If Verify succeeds for the locking script HASH160 h EQUAL, then the unlocking script ended by pushing a redeem script hashing to h and that redeem script executed successfully on the remaining pushes.", "quantifier": "every push-only unlocking script, every hash, every oracle", "why_tests_cant": "The number of remaining pushes decides whether the redeem script runs; tests only use multisig redeem scripts.", "anchors": ["xvm/engine.go: Engine.Verify"]}
{"id": "C26", "title": "Conditionals execute exactly the selected branch", "statement": "For every well-nested script with IF/NOTIF/ELSE/ENDIF, execution behaves like the structured program: the taken branch runs, the other one has no effect, at any nesting depth.", "quantifier": "every structured program of any depth, every initial stack", "why_tests_cant": "Nesting depth is unbounded; skipped branches contain arbitrary code.", "anchors": ["xvm/engine.go: execute, branchShouldSkip; xvm/instruction_flowcontrol.go"]}
{"id": "C27", "title": "Verification is independent of earlier use of the engine", "statement": "Calling Verify on an engine that has already executed other scripts gives the same result as on a fresh engine.", "quantifier": "every history of earlier executions on the same engine, every pair of scripts", "why_tests_cant": "Ranges over all histories of calls on one object.", "anchors": ["xvm/engine.go: Engine.Verify, reset, clean"]}
{"id": "C28", "title": "OP_RETURN makes an output unspendable", "statement": "No unlocking script makes Verify succeed for a locking script that begins with OP_RETURN.", "quantifier": "every unlocking script, every data payload", "why_tests_cant": "Universal negative over all unlocking scripts.", "anchors": ["xvm/instruction_flowcontrol.go: opReturn; xvm/engine.go: execute"]}
{"id": "C29", "title": "Standard locking scripts parse back to what produced them", "statement": "For each of the four standard kinds (P2PKH, P2SH, P2WPKH v0, P2WSH v0) and each hash of the right length, parsing the script built for it gives back that kind and hash; every byte string is recognised as at most one kind and whatever is recognised rebuilds to the same bytes; everything else is rejected.", "quantifier": "every hash; every byte string", "why_tests_cant": "All byte strings; kinds must be mutually exclusive.", "anchors": ["xcore/script.go: ParseLockingScript; xcore/script_p2pkh.go; xcore/script_p2sh.go; xcore/script_p2wpkh_v0.go; xcore/script_p2wsh_v0.go"]}
{"id": "C30", "title": "Multisig redeem scripts encode the policy", "statement": "The m-of-n script generated from n keys parses as: m, the keys in order, n, CHECKMULTISIG; it is generated exactly when 1 <= m <= n.", "quantifier": "every m, every list of keys", "why_tests_cant": "All m/n combinations and key bytes; degenerate m (zero, negative) is not tried by tests.", "anchors": ["xcore/script_multsig.go: PayToMultiSigScript / GenMultiSigScript"]}
{"id": "C31", "title": "Address text round-trips", "statement": "For each address kind, network (MainNet, TestNet) and hash, DecodeAddress(addr.ToString(net), net) returns an address of the same kind and hash.", "quantifier": "every 20- or 32-byte hash, both networks, four kinds", "why_tests_cant": "2^160 and 2^256 hashes; needs that no Base58 text can be mistaken for a witness text.", "anchors": ["xcore/address.go: DecodeAddress; xcore/address_p2pkh.go; xcore/address_p2sh.go; xcore/address_p2wpkh_v0.go; xcore/address_p2wsh_v0.go; network/network.go"]}
{"id": "C32", "title": "Accepted address text is canonical and network-bound", "statement": "If DecodeAddress(s, net) returns an address then that address's text on net is exactly s; therefore different texts never decode to the same address, and no text decodes on both MainNet and TestNet.", "quantifier": "every string, both networks", "why_tests_cant": "Quantifies over every string a user might type.", "anchors": ["xcore/address.go: DecodeAddress"]}
{"id": "C33", "title": "Decoding an address never panics", "statement": "DecodeAddress(s, net) returns an address or an error for every string s.", "quantifier": "every string, both networks", "why_tests_cant": "The failing text needs a valid Bech32 checksum over an empty data part.", "anchors": ["xcore/address.go: DecodeAddress; xbase/witness.go: WitnessDecode"]}
{"id": "C34", "title": "Witness transaction serialisation round-trips", "statement": "Deserialising the serialisation of a transaction that has at least one witness input gives a transaction with the same version, inputs (outpoint, sequence, non-witness unlocking script), outputs, witness stacks and lock time, with no bytes left over.", "quantifier": "every transaction with a witness input within the encodable sizes", "why_tests_cant": "Unbounded numbers of inputs, outputs and witness items with variable-length integers everywhere.", "anchors": ["xcore/transaction.go: Serialize, Deserialize"]}
{"id": "C35", "title": "Non-witness transaction serialisation round-trips", "statement": "Deserialising (no-witness form) the no-witness serialisation of any transaction gives the same version, inputs, outputs and lock time, with no bytes left over; distinct transactions (in those fields) have distinct serialisations.", "quantifier": "every transaction within the encodable sizes", "why_tests_cant": "Unbounded structure.", "anchors": ["xcore/transaction.go: SerializeNoWitness, DeserializeNoWitness"]}
{"id": "C36", "title": "Parsing and re-serialising a raw transaction preserves it", "statement": "If Deserialize accepts raw bytes then Serialize of the result gives the same bytes (minus trailing bytes and up to canonical integer encodings).", "quantifier": "every raw transaction accepted by the parser", "why_tests_cant": "Universal over all raw transactions; tests re-serialise only transactions they built themselves.", "anchors": ["xcore/transaction.go: Deserialize, Serialize, HasWitness"]}
{"id": "C37", "title": "Transaction identifiers do not depend on witness data", "statement": "Two transactions that differ only in witness data (and in the unlocking scripts of witness inputs) have the same identifier and the same no-witness serialisation.", "quantifier": "every transaction, every change of witness data", "why_tests_cant": "All witness contents.", "anchors": ["xcore/transaction.go: Hash, ID, SerializeNoWitness, HasWitness"]}
{"id": "C38", "title": "Reported sizes equal serialised sizes", "statement": "BaseSize is the length of the no-witness serialisation, Size is the length of the full serialisation, Weight is 3*BaseSize+Size and Vsize is Weight/4 rounded up.", "quantifier": "every transaction", "why_tests_cant": "Holds or fails per combination of input kinds and script lengths; unbounded.", "anchors": ["xcore/transaction.go: BaseSize, WitnessSize, Size, Weight, Vsize"]}
{"id": "C39", "title": "A legacy SIGHASH_ALL hash commits to the whole transaction", "statement": "If two transactions have the same legacy SIGHASH_ALL preimage at the same input index then they agree on version, lock time, every input's outpoint and sequence, every output's value and script, and the signed script code.", "quantifier": "every pair of transactions within encodable sizes, every index", "why_tests_cant": "Injectivity over pairs of unbounded structures.", "anchors": ["xcore/transaction.go: RawSignatureHash"]}
{"id": "C40", "title": "Every legacy signature hash commits to what it spends", "statement": "For every hash type, the legacy signature hash depends on the outpoint of the input being signed: signatures made for one input cannot be replayed on another.", "quantifier": "every hash type, every transaction", "why_tests_cant": "Hash types other than ALL are not exercised.", "anchors": ["xcore/transaction.go: RawSignatureHash"]}
{"id": "C41", "title": "The witness signature hash is the BIP143 digest", "statement": "On a transaction whose digest caches are empty, the version-0 witness signature hash for SIGHASH_ALL is the double SHA-256 of the BIP143 preimage, and equal preimages imply equal version, lock time, hash type, outpoint, sequence, script code, amount, and equal hashes of all prevouts, sequences and outputs.", "quantifier": "every transaction, every index", "why_tests_cant": "Unbounded structure; injectivity over pairs.", "anchors": ["xcore/transaction.go: WitnessV0SignatureHash"]}
{"id": "C42", "title": "Witness signature hashes do not depend on call history", "statement": "The witness signature hash of an input is a function of the transaction, index and hash type only, whatever hashes were computed before and however the transaction was built up.", "quantifier": "every sequence of earlier hash computations and transaction edits", "why_tests_cant": "Ranges over histories of calls.", "anchors": ["xcore/transaction.go: WitnessV0SignatureHash, AddInput, AddOutput"]}
{"id": "C43", "title": "A signed input verifies", "statement": "After SignIndex has reported success for every input with the right keys, Verify accepts the transaction (P2PKH, P2WPKH, P2SH and P2WSH multisig).", "quantifier": "every transaction, keys, and coins of the four kinds", "why_tests_cant": "Universal over keys, amounts and transaction shapes; also covers error reporting (success means signed).", "anchors": ["xcore/transaction.go: SignIndex, EmbedIdxSignature, Verify"]}
{"id": "C44", "title": "A witness-script-hash input is checked against its hash", "statement": "Transaction.Verify accepts a P2WSH input only if the script it ran hashes (SHA-256) to the 32-byte program in the spent output.", "quantifier": "every coin, every redeem script", "why_tests_cant": "Security over every redeem script an attacker may supply.", "anchors": ["xcore/transaction.go: Verify, NewTxIn, SetTxIn; xcore/script_p2wsh_v0.go"]}
{"id": "C45", "title": "Building a transaction conserves value", "statement": "When BuildTransaction succeeds, the sum of input amounts equals the sum of output amounts plus the fee that the builder decided, and outputs never exceed inputs.", "quantifier": "every set of coins, payees, fees and settings", "why_tests_cant": "Amounts are 64-bit and mix signed and unsigned arithmetic; overflow points are not tested.", "anchors": ["xcore/transactionbuilder.go: BuildTransaction"]}
{"id": "C46", "title": "The builder never exceeds the fee cap", "statement": "When BuildTransaction succeeds the fee paid (inputs minus outputs) is at most the configured maximum fee and at least zero.", "quantifier": "every builder configuration", "why_tests_cant": "All numeric settings.", "anchors": ["xcore/transactionbuilder.go: BuildTransaction, SetMaxFees, SendFees"]}
{"id": "C47", "title": "Built transactions pay exactly the requested outputs in order", "statement": "The outputs are the requested payments in order (address script and amount), then at most one change output to the change address exactly when the remainder is positive, then the OP_RETURN outputs with value zero, and the inputs are exactly the given coins in order; a shortfall, or change without a change address, is an error.", "quantifier": "every builder configuration", "why_tests_cant": "All configurations.", "anchors": ["xcore/transactionbuilder.go: BuildTransaction"]}
{"id": "C48", "title": "The size estimate is an upper bound", "statement": "EstimateSize for given inputs and outputs is at least the virtual size of the signed transaction with those inputs and outputs.", "quantifier": "every set of standard inputs and outputs", "why_tests_cant": "Depends on every count and script length.", "anchors": ["xcore/estimate.go: EstimateSize, EstimateFees"]}
{"id": "C49", "title": "Public derivation agrees with private derivation", "statement": "For every private extended key and non-hardened index, deriving privately and then taking the public part equals taking the public part and deriving publicly (key, chain code, depth, fingerprint, index); hardened derivation from a public key is an error.", "quantifier": "every extended key, every index below 2^31, every path of such indices", "why_tests_cant": "All keys, chain codes and indices; depends on the elliptic-curve group law.", "anchors": ["xcore/bip32/hdkey.go: Derive, HDPublicKey"]}
{"id": "C50", "title": "Extended key text round-trips", "statement": "NewHDKeyFromString(key.ToString()) gives back a key with the same material (key bytes, chain code, depth, fingerprint, child number, private flag); corrupted checksums and wrong lengths are rejected.", "quantifier": "every extended key; every string", "why_tests_cant": "All key material.", "anchors": ["xcore/bip32/hdkey.go: ToString, NewHDKeyFromString"]}
{"id": "C51", "title": "Derivation paths mean what they say", "statement": "DeriveByPath applies one derivation per path component, in order: n is child n, n' is hardened child n; malformed paths (including indices of 2^31 or more with ') are errors, never panics.", "quantifier": "every path string", "why_tests_cant": "All strings; numeric overflow at 2^31.", "anchors": ["xcore/bip32/hdkey.go: DeriveByPath"]}
{"id": "C52", "title": "Mnemonic encoding is lossless", "statement": "For each entropy of 128,160,192,224 or 256 bits, recovering the entropy from its mnemonic returns it; the mnemonic has 12..24 words of the word list and carries the checksum.", "quantifier": "every entropy of the five sizes, every well-formed word list", "why_tests_cant": "2^256 entropies incl. leading zero bytes.", "anchors": ["xcore/bip39/bip39.go: NewMnemonic, EntropyFromMnemonic"]}
{"id": "C53", "title": "Only correctly checksummed mnemonics are accepted", "statement": "If entropy recovery accepts a mnemonic, then that mnemonic (single-space separated) is exactly the one generated from the recovered entropy; a wrong checksum, unknown word or wrong word count is an error.", "quantifier": "every string", "why_tests_cant": "All word sequences.", "anchors": ["xcore/bip39/bip39.go: EntropyFromMnemonic, MnemonicToByteArray, IsMnemonicValid"]}
{"id": "C54", "title": "Every leaf has a Merkle proof that verifies", "statement": "For every non-empty list of leaves and every leaf in it, the proof returned for that leaf verifies against the tree's root.", "quantifier": "every non-empty leaf list, every member leaf", "why_tests_cant": "All tree sizes; padding of non-powers of two differs at every size.", "anchors": ["xcrypto/merkle.go: NewMerkle, Proofs, Verify, Root"]}
{"id": "C55", "title": "The Merkle root is the Bitcoin Merkle root", "statement": "Root equals the Bitcoin Merkle root: pair up, duplicate the last node of an odd level, hash, repeat.", "quantifier": "every non-empty leaf list", "why_tests_cant": "Fails only at certain sizes (6, 10, 11, 12, ...); tests use sizes 1..5 and 8.", "anchors": ["xcrypto/merkle.go: NewMerkle, Root"]}
{"id": "C56", "title": "A verifying Merkle proof binds the leaf", "statement": "If two different leaves verify against the same root with proofs of the same length and positions then two different inputs with the same hash have been exhibited; leaves of a tree of a given size are bound by the root in the same sense.", "quantifier": "every pair of leaves and proofs; every pair of equal-length leaf lists", "why_tests_cant": "A reduction to collision resistance quantifies over all adversarial proofs.", "anchors": ["xcrypto/merkle.go: Verify, NewMerkle"]}
{"id": "C57", "title": "Curve addition and doubling are the group law", "statement": "For points given in affine coordinates in range and on secp256k1 (or (0,0) for the point at infinity), Add and Double return the affine coordinates, in range, of the group sum.", "quantifier": "every pair of curve points, including equal, opposite and infinite ones", "why_tests_cant": "2^512 pairs; exceptional cases (equal, opposite, infinity) are measure-zero.", "anchors": ["xcrypto/secp256k1/secp256k1.go: Add, Double, addJacobian, doubleJacobian, affineFromJacobian"]}
{"id": "C58", "title": "Scalar multiplication is repeated addition", "statement": "ScalarMult(P, k) is k times P in the group for every byte string k; ScalarBaseMult is the same with the generator; the generator has prime order N.", "quantifier": "every point on the curve, every scalar byte string of any length", "why_tests_cant": "All scalars and points.", "anchors": ["xcrypto/secp256k1/secp256k1.go: ScalarMult, ScalarBaseMult, SECP256K1"]}
{"id": "C59", "title": "Public keys round-trip through their three encodings", "statement": "Parsing the compressed, uncompressed or hybrid serialisation of a public key on the curve returns the same point.", "quantifier": "every point on the curve, three formats", "why_tests_cant": "All points; the compressed form needs a modular square root and parity selection.", "anchors": ["xcrypto/pubkey.go: PubKeyFromBytes, SerializeCompressed, SerializeUncompressed, SerializeHybrid; xcrypto/secp256k1/sec.go"]}
{"id": "C60", "title": "Only points on the curve are accepted as public keys", "statement": "If PubKeyFromBytes accepts a byte string then the resulting coordinates are in range and on the curve, and the byte string is one of the three standard serialisations of that point.", "quantifier": "every byte string", "why_tests_cant": "All byte strings: invalid-curve and malleability attacks.", "anchors": ["xcrypto/pubkey.go: PubKeyFromBytes; xcrypto/secp256k1/sec.go: SecUnmarshal"]}
{"id": "C61", "title": "Private and public key addition commute", "statement": "For private keys a and b, the public key of a+b (mod N) is the sum of the public keys; serialising a private key below 2^256 and parsing it returns the same key.", "quantifier": "every pair of private keys", "why_tests_cant": "All key pairs.", "anchors": ["xcrypto/prvkey.go: Add, Serialize, PrvKeyFromBytes; xcrypto/pubkey.go: Add"]}
{"id": "C62", "title": "ECDSA signatures verify", "statement": "A signature produced by Sign with private key d in 1..N-1 over any hash is accepted by ECDSA verification under the public key d*G for that hash.", "quantifier": "every private key, every hash, every nonce source", "why_tests_cant": "All keys, hashes and nonces.", "anchors": ["xcrypto/ecdsa/ecdsa.go: Sign, Verify; xcrypto/signature_ecdsa.go"]}
{"id": "C63", "title": "ECDSA signatures are in range and low-S", "statement": "Sign returns r in 1..N-1 and s in 1..N/2 or an error; never anything else.", "quantifier": "every private key, hash and nonce", "why_tests_cant": "All inputs.", "anchors": ["xcrypto/ecdsa/ecdsa.go: Sign"]}
{"id": "C64", "title": "Deterministic nonces are in range", "statement": "The RFC6979 nonce function, whenever it returns, returns k with 1 <= k < q, computed from only the key and the hash by the RFC6979 recurrence.", "quantifier": "every key, hash, and HMAC function", "why_tests_cant": "All inputs; the retry branch is practically never taken by tests.", "anchors": ["xcrypto/ecdsa/rfc6979.go: NonceRFC6979, hashToInt, int2octets, bits2octets"]}
{"id": "C65", "title": "DER signatures round-trip and are strict", "statement": "Parsing the DER serialisation of (r, s) returns (r, s); a byte string accepted by the parser is exactly the DER serialisation of the parsed pair.", "quantifier": "every pair of positive integers; every byte string", "why_tests_cant": "Unbounded integers with sign-padding at each byte length; strictness is over all byte strings.", "anchors": ["xcrypto/signature_ecdsa.go: Serialize, Deserialize, NewSignatureEcdsa"]}
{"id": "C66", "title": "Schnorr signatures verify", "statement": "A signature produced by schnorr Sign with private key d in 1..N-1 over any 32-byte message verifies under d*G.", "quantifier": "every private key and message", "why_tests_cant": "All inputs; exceptional values (zero challenge) are measure-zero.", "anchors": ["xcrypto/schnorr/schnorr.go: Sign, Verify, GetK, GetE"]}
{"id": "C67", "title": "Schnorr verification accepts only canonical signatures", "statement": "Verify accepts (r, s) only if r < P and s < N; so no accepted signature has a second accepted encoding with the same r and congruent s.", "quantifier": "every (r, s), every key and message", "why_tests_cant": "The boundary s = N is a single point.", "anchors": ["xcrypto/schnorr/schnorr.go: Verify; xcrypto/signature_schnorr.go"]}
{"id": "C68", "title": "Paillier decryption inverts encryption", "statement": "For keys built from distinct primes p, q with gcd(pq,(p-1)(q-1))=1, Decrypt(Encrypt(m)) = m for every m in [0,n) and every randomiser coprime to n.", "quantifier": "every key, plaintext, randomiser", "why_tests_cant": "Number-theoretic identity over all keys.", "anchors": ["xcrypto/paillier/paillier.go: Encrypt, Decrypt, GenerateKeyPair"]}
{"id": "C69", "title": "Paillier homomorphic operations compute on plaintexts", "statement": "Add, Sub, AddPlaintext, MultPlaintext and DivPlaintext on ciphertexts decrypt to the sum, difference, sum with constant, product with constant and quotient by an invertible constant, modulo n.", "quantifier": "every key, pair of plaintexts, randomisers, constants", "why_tests_cant": "Number-theoretic identities over all keys.", "anchors": ["xcrypto/paillier/homomorphism.go"]}
{"id": "C70", "title": "Two-party ECDSA produces a valid signature for the joint key", "statement": "If two parties run phases 1-5 exchanging their outputs, both obtain the same signature and it verifies for the message under the shared public key; shared key and shared nonce agree.", "quantifier": "every pair of keys, nonces, randomisers, Paillier keys large enough", "why_tests_cant": "Needs that no intermediate integer wraps modulo the Paillier modulus, over all values.", "anchors": ["xcrypto/mpc_ecdsa.go: Phase1..Phase5"]}
{"id": "C71", "title": "Two-party Schnorr produces a valid signature for the joint key", "statement": "If two parties run phases 1-5 exchanging their outputs, the resulting signature verifies for the message under the shared public key.", "quantifier": "every pair of keys and messages", "why_tests_cant": "The package's test never verifies the result.", "anchors": ["xcrypto/mpc_schnorr.go: Phase1..Phase5; xcrypto/schnorr/schnorr.go"]}
{"id": "C72", "title": "The adaptor secret is recoverable exactly", "statement": "In the scriptless ECDSA exchange, after both parties finish phases 1-5, Bob's published signature verifies under the shared key and Alice's recovery step returns exactly Bob's secret (mod N).", "quantifier": "every pair of keys, nonces, secret in 1..N-1", "why_tests_cant": "Algebraic identity over all values.", "anchors": ["xcrypto/scriptless_ecdsa.go: ScriptlessPhase1..ScriptlessPhase6"]}
{"id": "C73", "title": "RIPEMD-160 does not depend on how the input is split", "statement": "Writing a message in any sequence of chunks gives the same digest as writing it at once; computing the digest does not disturb later writes; the internal consistency panic is unreachable.", "quantifier": "every message, every split into chunks, every interleaving of digest calls", "why_tests_cant": "All splits of all messages.", "anchors": ["xcrypto/ripemd160/ripemd160.go: Write, Sum, Reset"]}
{"id": "C74", "title": "PBKDF2 computes RFC 2898", "statement": "Key(password, salt, iter, keyLen) returns exactly keyLen bytes equal to the RFC 2898 function with iteration count max(iter,1).", "quantifier": "every password, salt, iteration count, length, PRF", "why_tests_cant": "Unbounded iteration count and length.", "anchors": ["xcrypto/pbkdf2/pbkdf2.go: Key"]}
{"id": "C75", "title": "Protocol messages round-trip", "statement": "For each message type with content (version, inv, getdata, getheaders, headers, reject, tx, ping, pong) decoding its encoding gives back the message.", "quantifier": "every message value within field ranges", "why_tests_cant": "Variable-length lists and strings.", "anchors": ["xprotocol/msg*.go: Encode, Decode; xprotocol/blockheader.go; xprotocol/invvect.go"]}
{"id": "C76", "title": "A message stream delivers what was sent, in order", "statement": "Reading the concatenation of any sequence of written messages from the same network yields the same messages in the same order, each with its own type and content.", "quantifier": "every finite sequence of messages", "why_tests_cant": "All sequences.", "anchors": ["xprotocol/stream.go: WriteMessage, ReadMessage; xprotocol/message.go: makeEmptyMessage"]}
{"id": "C77", "title": "Corrupted or foreign frames are rejected", "statement": "ReadMessage returns a message only if the frame's network magic is the stream's own and the checksum matches the payload.", "quantifier": "every byte string on the wire", "why_tests_cant": "All byte strings.", "anchors": ["xprotocol/stream.go: ReadMessage"]}
{"id": "C78", "title": "Inventory limits are enforced on both sides", "statement": "A message built through AddInvVect (or AddBlockHeader) never holds more than the protocol maximum and can always be decoded by a peer.", "quantifier": "every sequence of Add calls", "why_tests_cant": "All call sequences and batch sizes.", "anchors": ["xprotocol/msginv.go: AddInvVect; xprotocol/msggetdata.go; xprotocol/msgheaders.go"]}
{"id": "C79", "title": "The read loop delivers in order and disconnects once", "statement": "The read loop calls the receive handler once per received message, in wire order, up to the first read error, then calls the disconnect handler exactly once, last.", "quantifier": "every sequence of messages and errors on the wire", "why_tests_cant": "All event sequences.", "anchors": ["xprotocol/connection.go: ReadLoop"]}
{"id": "C80", "title": "Concurrent writers never interleave frames", "statement": "With any number of goroutines writing to one stream, the bytes on the wire are a concatenation of whole frames, one per completed write, in some order.", "quantifier": "every number of writers, every interleaving", "why_tests_cant": "All schedules.", "anchors": ["xprotocol/stream.go: WriteMessage (mutex)"]}
{"id": "C81", "title": "A peer waiting to read can still write", "statement": "While one goroutine waits in ReadMessage for input, another goroutine can complete WriteMessage on the same stream; two connected peers that are both reading do not block each other.", "quantifier": "every schedule of a reader and a writer", "why_tests_cant": "A liveness property over schedules.", "anchors": ["xprotocol/stream.go: ReadMessage, WriteMessage (shared mutex)"]}
{"id": "C82", "title": "Message decoding never panics", "statement": "Decoding any payload for any command returns a message or an error, never a panic.", "quantifier": "every command, every payload", "why_tests_cant": "All byte strings; failing ones carry 64-bit length prefixes of 2^63 or more.", "anchors": ["xprotocol/msg*.go: Decode; xbase/buffer.go"]}
{"id": "C83", "title": "RIPEMD-160 is the published function", "statement": "The digest computed by the ripemd160 package is RIPEMD-160 as published (padding, Boolean functions, additive constants from square and cube roots, word order from the permutations rho and pi, shift table), 20 bytes long, for messages of every length; Hash160 is RIPEMD-160 of SHA-256.", "quantifier": "every message", "why_tests_cant": "Test vectors cover a handful of lengths; padding boundaries and table entries only show on particular inputs.", "anchors": ["xcrypto/ripemd160/ripemd160block.go: _Block", "xcrypto/ripemd160/ripemd160.go: Sum", "xcrypto/hash.go: Hash160"]}
{"id": "C84", "title": "A signed transaction verifies after transmission", "statement": "A transaction signed for every input with the right keys, witness inputs with hash types of one class, can be serialised, parsed by a receiver and, once the receiver has supplied the spent coins with SetTxIn, Verify accepts it: SetTxIn rebuilds the unlocking script of witness inputs from the witness stack.", "quantifier": "every transaction, keys and coins of the four kinds (P2WSH scripts with at most 16 keys)", "why_tests_cant": "Tests check single transactions of fixed shape; the claim composes signing, serialisation, parsing and rebuilding for all shapes and mixes of inputs.", "anchors": ["xcore/transaction.go: Serialize, Deserialize, SetTxIn, Verify", "xcore/script_p2wsh_v0.go: WitnessToUnlockingScriptBytes", "xcore/script_p2wpkh_v0.go: WitnessToUnlockingScriptBytes"]}
{"id": "C85", "title": "Fee estimates are exact to one satoshi", "statement": "EstimateFees(size, rate), which computes in floating point, differs by at most one satoshi from rate*size/1000 for sizes and rates below 2^53 with product below 1000*2^50, and is zero for a rate that is not positive.", "quantifier": "every size and rate in that range", "why_tests_cant": "Floating point rounding depends on every pair of size and rate.", "anchors": ["xcore/estimate.go: EstimateFees"]}
{"id": "C86", "title": "Signed transactions verify with secp256k1 ECDSA as implemented", "statement": "C43 and C84 hold for the ECDSA implementation of the repository, with no assumption on the signature scheme: the serialised public key of a private key k is the standard serialisation of kG, verification in transactions accepts exactly the parsed signatures that satisfy the ECDSA equation under the parsed point, and a transaction whose inputs were signed with the right keys is accepted by Verify, also after serialisation and parsing.", "quantifier": "every hash function, every private key that is not a multiple of N, every transaction and signing order as in C43", "why_tests_cant": "Each test signs one transaction with fixed keys; the composition over all keys, nonces, scripts and orders of signing cannot be enumerated.", "anchors": ["xcore/transaction.go:387-401", "xcore/transaction.go:700-740", "xcrypto/signature_ecdsa.go:44-66", "xcrypto/pubkey.go:33-85"]}
{"id": "C87", "title": "Child keys are those of BIP 32", "statement": "The master key is HMAC-SHA512 of the seed under \"Bitcoin seed\"; the child i of a key has the number (left half + parent) mod N (or the point leftG + parent), the right half as chain code, the parent's fingerprint, index and depth + 1, where the hash is over a zero byte and the number (hardened) or the compressed point; a left half of N or more, a zero result and a depth beyond 255 are refused.", "quantifier": "every seed, every extended key, every index", "why_tests_cant": "All keys, chain codes and indices.", "anchors": ["xcore/bip32/hdkey.go: NewHDKey, Derive, getIntermediary"]}
{"id": "C88", "title": "Seeds of mnemonics", "statement": "The seed of a mnemonic and a password is the 64 bytes of PBKDF2 with HMAC-SHA512, keyed with the mnemonic, salt \"mnemonic\" followed by the password, 2048 rounds; with error checking a seed is returned exactly for the mnemonics with a right checksum.", "quantifier": "every mnemonic text and password", "why_tests_cant": "All texts and passwords, including those of the wrong spacing.", "anchors": ["xcore/bip39/bip39.go: NewSeed, NewSeedWithErrorChecking, (*BIP39).Seed"]}
{"id": "C89", "title": "Repeating a phase gives the same result", "statement": "A phase of the two-party Schnorr protocol run again with the same arguments returns the same bytes.", "quantifier": "every key, nonce, message, shared key and shared point", "why_tests_cant": "The test runs each phase once; whether the second call differs depends on the shared point.", "anchors": ["xcrypto/mpc_schnorr.go: Phase4; xcrypto/schnorr/schnorr.go: GetK"]}
{"id": "C90", "title": "What phase 4 reveals", "statement": "The ciphertext of phase 4 of two-party ECDSA decrypts to (d1 m x + z)/k1, not reduced or masked, for whatever number m the counterpart has encrypted. So a counterpart that encrypts 2^512 in place of its key computes the private key after one run; one that follows the protocol computes it from two runs for the same hash, because the nonce is a function of key and hash; likewise for Schnorr with two different shared keys, or with one shared key when the counterpart sends X - R1 and then -X - R1, for a point X of its choice, where R1 is the party's point.", "quantifier": "every key, nonce, non-zero hash, Paillier key of the counterpart, shared point", "why_tests_cant": "A statement about all keys and about what a counterpart can compute.", "anchors": ["xcrypto/mpc_ecdsa.go: Phase2, Phase4; xcrypto/mpc_schnorr.go: Phase2, Phase4"]}
{"id": "C91", "title": "Payloads have the protocol's layout", "statement": "The encoding of every message is the byte sequence the Bitcoin protocol documentation prescribes for it, port numbers in network byte order included.", "quantifier": "every message that fits in memory", "why_tests_cant": "All field values; the tests decode with the same code that encodes, so a wrong layout goes unseen.", "anchors": ["xprotocol/msg*.go: Encode; xprotocol/msgversion.go: NewMsgVersion, Encode"]}
{"id": "C92", "title": "Size is the length of the encoding", "statement": "Size() of a message is the number of bytes of Encode().", "quantifier": "every message", "why_tests_cant": "All messages.", "anchors": ["xprotocol/msg*.go: Size"]}
{"id": "C93", "title": "The hash of a block header identifies it", "statement": "The hash of a header is the double SHA-256 of its 80 bytes; two headers with the same hash are equal, or a collision of SHA-256 is exhibited.", "quantifier": "every pair of headers", "why_tests_cant": "All headers.", "anchors": ["xprotocol/blockheader.go: Hash, Encode"]}
{"id": "C94", "title": "Two peers: what is read is what was written", "statement": "With any number of goroutines at both ends of a connection, any interleaving and any division of the bytes in transit, the messages read at one end are the first ones written at the other, in the order in which the writes returned.", "quantifier": "every execution of two peers", "why_tests_cant": "All schedules and all divisions of the byte stream.", "anchors": ["xprotocol/stream.go: ReadMessage, WriteMessage"]}
{"id": "C95", "title": "Script texts mean what their words mean", "statement": "Load turns a text into a script exactly when every word between single spaces, tabs or line ends is an opcode name, a 64-bit integer, 0x followed by hexadecimal, or hexadecimal in quotes; the script is then the concatenation of the opcode bytes, the pushes of the integers, the raw bytes and the pushes of the data. Any other text is an error.", "quantifier": "every text", "why_tests_cant": "All texts; the malformed ones that are accepted are found only by looking at every case.", "anchors": ["xvm/scriptbuilder.go: Load, parseHex", "xvm/instruction.go: opcodesByName"]}
{"id": "C96", "title": "Disassembly is faithful", "statement": "DisasmString shows exactly the instructions of a script that parses; different scripts have different texts; Load of the text gives the script back.", "quantifier": "every script", "why_tests_cant": "All scripts and pairs of scripts.", "anchors": ["xvm/scriptreader.go: DisasmString", "xvm/scriptbuilder.go: Load"]}
{"id": "C97", "title": "A transaction signed by two parties verifies", "statement": "If two parties with a shared key run the two-party ECDSA phases for the signature hash of every input paying to that key, and embed the result, Verify accepts the transaction, also after it was serialised and received. The exchange does not get stuck. The P2PKH example, which feeds the second party's own ciphertext back to it, does not produce such a signature.", "quantifier": "every transaction, every set of inputs, every pair of private keys and every random draw", "why_tests_cant": "The tests sign one transaction with two fixed keys and print the result of the other example without checking it.", "anchors": ["examples/two_party_ecdsa_transaction_p2wpkh.go", "examples/two_party_ecdsa_transaction_p2pkh.go", "xcore/transaction.go: EmbedIdxEcdsaSignature", "xcrypto/mpc_ecdsa.go"]}
{"id": "C98", "title": "RPC calls survive any answer", "statement": "Whatever a node answers, the four calls of the RPC client return a value or an error, never panic; when the node reports an error or does not answer, they return an error.", "quantifier": "every node, every answer, every call", "why_tests_cant": "Four canned answers of a mock server; none lacks both the result and the error.", "anchors": ["xrpc/client.go: call", "xrpc/method.go: GetBlockHash, GetBlockCount, GetBlockHeader, GetBlock"]}
{"id": "C99", "title": "RPC calls return what the node says", "statement": "The number, hash, header or block that a call returns is the one the node gave: every member of headers and blocks, every transaction with its inputs and outputs, also for blocks outside the best chain.", "quantifier": "every number, hash, header and block a node can describe", "why_tests_cant": "The mock server marshals the same structs, so a member decoded wrongly is encoded wrongly again and the two errors cancel; the header's contents are not compared.", "anchors": ["xrpc/method.go", "xrpc/models.go: BlockHeaderResult, BlockResult, TransactionResult"]}
{"id": "C100", "title": "The text of a transaction shows it", "statement": "ToString returns a text for every transaction, signed or not; the text shows the inputs with their scripts and witnesses, the outputs, the sizes and the fee of the transaction, so that transactions that differ in these have different texts.", "quantifier": "every transaction, built or read from its wire format", "why_tests_cant": "The tests print the text of a few signed transactions and compare nothing.", "anchors": ["xcore/transaction.go:817-874: ToString", "xcore/transaction.go:802-814: Fees"]}
{"id": "C101", "title": "Tracing does not change the verdict and shows the run", "statement": "With debugging on or off, and whatever was recorded before, Verify gives the same verdict; without debugging nothing is recorded; with debugging the records tell, in order and numbered from 1, each executed instruction, the resulting stack and the remaining script, and the printed stack determines the stack.", "quantifier": "every pair of scripts, every transaction environment, every earlier log, every stack", "why_tests_cant": "The tests print traces and compare nothing; a trace that altered the stack or the counter would only show on the scripts tried.", "anchors": ["xvm/engine.go:45-52,89-171", "xvm/trace.go", "xvm/stack.go:190-204", "xvm/scriptreader.go:114-133"]}
{"id": "C102", "title": "Verify does not depend on or disturb memory layout", "statement": "The verdict of Verify depends only on the bytes of the two scripts, not on how their slices overlap or on spare capacity; Verify changes no byte the caller can see, so that a second call gives the same verdict.", "quantifier": "every heap, every pair of slices, every engine state", "why_tests_cant": "Tests pass freshly made slices; overlaps and spare capacity depend on how a caller built the scripts.", "anchors": ["xvm/engine.go:89-113: Verify, append(unlocking, locking...)"]}
{"id": "C103", "title": "Stack copies are independent", "statement": "The slice operations of the engine's stack act as on a pure list, and a copy made by Copy and the original do not influence each other whatever is done to either; so the stack saved for the redeem script is intact.", "quantifier": "every heap, every stack, every sequence of operations, every growth policy of append", "why_tests_cant": "Whether two slices share an array depends on capacities that the runtime chooses; a shallow copy passes many tests.", "anchors": ["xvm/stack.go:42-216", "xvm/engine.go:94-106"]}
{"id": "C104", "title": "Elements below those a script uses do not matter", "statement": "A script that does not fail for a missing stack element does the same on a stack with more elements below: the same error or panic, or the same elements and open conditionals, with the elements below unchanged. With the final check the same holds if the script leaves an element.", "quantifier": "all scripts, callbacks, stacks, open conditionals and elements below", "why_tests_cant": "Tests run scripts on a few stacks; the claim is about every script and every possible rest of the stack.", "anchors": ["xvm/stack.go:62-187", "xvm/engine.go:67-171", "xvm/instruction_crypto.go:17-151"]}
{"id": "C105", "title": "Scripts taken from a builder stay as they are", "statement": "A script returned by Script is not changed by anything done later to the builder, and the calls of the builder and of its buffer act on memory as on values, whatever else is in memory.", "quantifier": "every heap, every buffer, every sequence of calls, every growth policy of append", "why_tests_cant": "Tests take one script from one builder; whether slices share an array depends on capacities and on the order of the calls.", "anchors": ["xbase/buffer.go:20-285", "xvm/scriptbuilder.go:43-129"]}
{"id": "C106", "title": "The nonce function and its shared buffers", "statement": "The nonce function, which overwrites the slices k and v while using them and appends to v, gives the same nonce as on values for every growth of slices, and changes no memory of the caller.", "quantifier": "every heap, hash slice, key, group order, number of rounds and growth policy", "why_tests_cant": "Test vectors run with one runtime's growth policy; an overlap appears only with other capacities.", "anchors": ["xcrypto/ecdsa/rfc6979.go:25-77"]}
{"id": "C107", "title": "Key derivation works in place", "statement": "pbkdf2.Key, whose block T is the end of its own result and whose hash U is overwritten in each round, gives the same key as on values, panics for the same arguments, and changes no memory of the caller.", "quantifier": "every hash of fixed length, salt slice, iteration count, key length, heap and growth policy", "why_tests_cant": "Vectors cover a few block counts and one growth policy.", "anchors": ["xcrypto/pbkdf2/pbkdf2.go:28-69"]}
{"id": "C108", "title": "What the builder signs, verifies", "statement": "A transaction built and signed by the builder verifies, here and at the receiver after serialisation, when every coin comes with the right keys and the hash types of the witness coins are of one class; and with the right keys signing succeeds whenever building without signing does.", "quantifier": "every builder configuration and every sequence of builder calls, any number and mix of the four kinds of coins, every key", "why_tests_cant": "Tests build a handful of fixed transactions with one or two coins.", "anchors": ["xcore/transactionbuilder.go:165-330", "xcore/transaction.go:209-269", "xcore/transaction.go:684-734"]}
{"id": "C109", "title": "Watch-only wallets", "statement": "The text of an extended public key can be parsed, and what it derives along a path without hardened steps is the public part of what the private key derives; coins received at the P2PKH and P2WPKH addresses derived from the text are spent by transactions built and signed with the private keys of the same paths: they verify.", "quantifier": "every private extended key (not a multiple of the group order), every path without hardened steps, both networks, any set of coins", "why_tests_cant": "Tests compare a few children of a few seeds and never go from an extended public key to a spent coin.", "anchors": ["xcore/bip32/hdkey.go:113-199", "xcore/bip32/hdkey.go:257-322", "xcore/address.go:33-74", "xcore/transactionbuilder.go:165-330"]}
{"id": "C110", "title": "Connections with handlers, Send and Close", "statement": "Handlers run one at a time in the goroutine of the read loop: the receive handler once per message in wire order, then the disconnect handler once, last, unless a payload crashes the process. Sends from handlers and from other goroutines put whole frames on the wire, in the order in which they return. While the loop waits for input no Send returns; while it does not, every Send can complete, also one made by a handler. After Close nothing is sent and at most one more message is handed over, none unless the loop was already waiting for input. The loop can always come to its end.", "quantifier": "every schedule of the loop, its handlers, any number of sending goroutines, arrivals in any pieces, failures and Close", "why_tests_cant": "A statement about every interleaving; tests run one schedule of two messages.", "anchors": ["xprotocol/connection.go:30-71", "xprotocol/stream.go:34-130"]}
{"id": "C111", "title": "What it takes to spend an output", "statement": "A transaction received from others and supplied with the coins it spends is accepted by Verify only if every input carries a signature good for a key of its coin; and an output can be spent at all exactly if its locking script is a sequence of instructions. Verify changes nothing of the transaction but its digest caches.", "quantifier": "every locking script, every unlocking script, every transaction with any mix of inputs, every signature scheme", "why_tests_cant": "The spender chooses the unlocking script; no test tries all of them, and none tries one with an open conditional.", "anchors": ["xvm/engine.go:89-171", "xvm/instruction_flowcontrol.go:20-94", "xcore/transaction.go:142-176", "xcore/transaction.go:684-734", "xcore/script_p2wpkh_v0.go"]}
{"id": "C112", "title": "Running the unlocking script twice", "statement": "Verify runs the unlocking script twice. If the first pass succeeds the second does too, and it leaves the same values, or none if the script ends in a branch that is skipped. So Verify succeeds exactly if the locking script, run after one pass, leaves nothing or a true value, and (with two or more values below) the last value of the unlocking script runs as a script on its other values. An unlocking script that closes its conditionals can be replaced by pushes of the values it leaves.", "quantifier": "every unlocking script, every locking script, every oracle", "why_tests_cant": "The claim relates two executions of an arbitrary script in different states; tests use two pushes.", "anchors": ["xvm/engine.go:44-171", "xvm/engine.go:89-113", "xvm/instruction_flowcontrol.go:20-94"]}
{"id": "C113", "title": "Signing parties called in any order and after Close", "statement": "After Close no method of a two-party signing party (ECDSA, Alice, Bob, Schnorr) returns anything that depends on the private key, the nonce, the hash, the Paillier key or Bob's secret, whatever was called before and in whatever order the methods are called afterwards. Phase 3 panics exactly if no phase 2 has succeeded. The nonce a party holds is always the one of the hash it holds.", "quantifier": "every key and secret, every sequence of calls with any arguments before and after Close, failures of the random source included", "why_tests_cant": "The tests call each phase once in the intended order and never use a party after Close; the claim is about all sequences of calls.", "anchors": ["xcrypto/mpc_ecdsa.go:52-174", "xcrypto/scriptless_ecdsa.go:28-144", "xcrypto/mpc_schnorr.go:43-132"]}
{"id": "C114", "title": "A transaction read into a used object", "statement": "What Deserialize reads into a Transaction object, and what Verify then says about it, depends on the bytes alone and not on what the object was used for before.", "quantifier": "every earlier content of the object (inputs, outputs, digest caches), every byte string, every signature scheme, every set of outputs", "why_tests_cant": "The tests read every transaction into a new object; the claim relates all earlier states of an object to all byte strings.", "anchors": ["xcore/transaction.go:495-587", "xcore/transaction.go:623-681", "xcore/transaction.go:319-384", "xcore/transaction.go:684-734"]}
{"id": "C115", "title": "What a failed Deserialize leaves in the object", "statement": "A Deserialize or DeserializeNoWitness that returns an error leaves the Transaction object as it was; in particular the object can still be serialized, hashed and read into.", "quantifier": "every earlier content of the object (nil pointers included), every transaction, every place at which its bytes are cut, every byte string", "why_tests_cant": "The tests look at the error of a cut transaction and drop the object; the claim is about every object state and every cut.", "anchors": ["xcore/transaction.go:495-587", "xcore/transaction.go:623-681", "xcore/transaction.go:435-492", "xcore/transaction.go:591-620", "xcore/transaction.go:738-765", "xcore/transaction.go:802-814"]}
{"id": "C116", "title": "A party signs the hash it was given in phase 2", "statement": "Whatever the caller stores in its own memory between the calls, a signing party signs the hashes that were given to its phase 2.", "quantifier": "every sequence of phase calls and of stores by the caller, every private key, hash and memory, with ECDSA and with Schnorr", "why_tests_cant": "The tests compute a hash once and leave its memory alone; the claim is about every interleaving of calls and stores.", "anchors": ["xcrypto/mpc_ecdsa.go:63-135", "xcrypto/mpc_schnorr.go:50-105", "xcrypto/scriptless_ecdsa.go:32-35", "xcrypto/scriptless_ecdsa.go:88-93"]}
{"id": "C117", "title": "A transaction carries the signature that was embedded", "statement": "After EmbedIdxEcdsaSignature the transaction carries the bytes the signature had at the time of the call, whatever the caller embeds or stores in its memory later; and the call changes no byte of the caller.", "quantifier": "every sequence of embeddings, stores and new arrays, every layout of the signatures in memory, every kind of coin, every signature scheme", "why_tests_cant": "The tests embed each signature from a slice of its own; the claim is about every way slices can share arrays and spare capacity.", "anchors": ["xcore/transaction.go:247-278", "xcore/script_p2wpkh_v0.go:57-63", "xcore/script_p2wsh_v0.go:66-83"]}
{"id": "C118", "title": "Functions that append to an argument", "statement": "Bech32Encode, GetK0, GetE and the Sum of RIPEMD-160 give what the bytes of their arguments give, however these lie in memory, and leave the memory of their caller as it is.", "quantifier": "every memory, every position, length and spare capacity of the argument slices, every growth of slices", "why_tests_cant": "The tests pass slices of separate arrays; the claim is about every overlap of the arguments.", "anchors": ["xbase/bech32.go:76-92", "xcrypto/schnorr/schnorr.go:111-141", "xcrypto/ripemd160/ripemd160.go:81-120"]}
{"id": "C119", "title": "Nobody holds the shared key alone", "statement": "The counterpart of a party cannot choose its public key so that it alone holds the private key of the shared key that phase 1 returns.", "quantifier": "every private key of the party, every public key presented by the counterpart, with Schnorr and with ECDSA", "why_tests_cant": "The tests run phase 1 with two honestly made keys; the claim is about every key a counterpart can present.", "anchors": ["xcrypto/mpc_schnorr.go:41-46", "xcrypto/mpc_ecdsa.go:52-59", "xcrypto/pubkey.go:33-111"]}
{"id": "C120", "title": "An ordinary signature and a joint one share the nonce", "statement": "A private key that signs a message alone and also takes part in a run for the same message uses the same nonce twice: an ordinary signature together with what phase 4 returns gives an equation with the private key as the only unknown.", "quantifier": "every private key, message, shared key and shared point, for Schnorr and ECDSA; every Paillier key of the counterpart", "why_tests_cant": "A statement about all keys and messages and about what a counterpart can compute.", "anchors": ["xcrypto/mpc_schnorr.go:50-105", "xcrypto/mpc_ecdsa.go:63-122", "xcrypto/schnorr/schnorr.go:32-120", "xcrypto/ecdsa/ecdsa.go:17-53"]}
{"id": "C121", "title": "Relaying cannot change an accepted transaction", "statement": "Whoever only relays a transaction cannot change it so that Verify still accepts it and its identifier is another one.", "quantifier": "every transaction that Verify accepts, every signature scheme (every key for secp256k1), every change of scripts and witnesses", "why_tests_cant": "A statement about every change of every accepted transaction; the tests verify what was just signed.", "anchors": ["xcore/transaction.go:142-176", "xcore/transaction.go:459-477", "xcore/transaction.go:591-618", "xcore/transaction.go:684-734", "xcore/script_p2wpkh_v0.go:82-85", "xcrypto/signature_ecdsa.go:55-66"]}
{"id": "C122", "title": "A child's private key does not give away its parent", "statement": "Whoever holds the extended public key of an account and the private key of one of its descendants cannot compute the private key of the account.", "quantifier": "every extended private key, every list of indices, every hash function", "why_tests_cant": "The tests derive single paths; the claim is about every account, every descendant and what can be computed from them.", "anchors": ["xcore/bip32/hdkey.go:113-163", "xcore/bip32/hdkey.go:205-240", "xcrypto/prvkey.go:44-55"]}
{"id": "C123", "title": "Fresh mnemonics are as many as their size says", "statement": "NewEntropy can return every byte string of the requested size, and calls at different times return different ones; so NewBIP39 has 2^128 mnemonics to choose from.", "quantifier": "every time of the call, every size, every word list, every table of the generator", "why_tests_cant": "The tests check lengths of single results; the claim is about all times and about the set of all results.", "anchors": ["xcore/bip39/bip39.go:98-112", "xcore/bip39/bip39.go:397-429"]}
{"id": "C124", "title": "The script engine follows the script rules of Bitcoin", "statement": "For scripts made of the opcodes it knows, the engine accepts an unlocking and a locking script exactly if the reference implementation (EvalScript, VerifyScript with P2SH) does under the rules of consensus.", "quantifier": "every pair of scripts, every stack, every answer of the callbacks, every nesting of conditionals", "why_tests_cant": "Tests run standard scripts; agreement of two interpreters is a statement about all programs and all stacks.", "anchors": ["xvm/engine.go:89-183", "xvm/stack.go:20-187", "xvm/instruction_bitwise.go:27-57", "xvm/instruction_crypto.go:17-151", "xvm/instruction.go:68-150"]}
{"id": "C125", "title": "Coins sent to an address of the library can be spent under Bitcoin's rules", "statement": "For every m-of-n script that the library makes and every address it derives from it or from a key (P2PKH, P2SH, P2WPKH, P2WSH), the unlocking script or witness it makes from m valid signatures in order is accepted by the script rules of Bitcoin, limits included.", "quantifier": "every m and n, every list of keys of 33 to 65 bytes, every list of signatures, every hash function, every unlocking script or witness at all (for the negations)", "why_tests_cant": "Tests run the library's own engine, which has no limits, on two or three keys; that no unlocking script at all spends an address is a statement about all scripts.", "anchors": ["xcore/script_multsig.go:44-57", "xcore/script_p2sh.go:40-64", "xcore/script_p2wsh_v0.go:40-83", "xcore/script_p2pkh.go:45-62", "xcore/script_p2wpkh_v0.go:45-63", "xcore/address_p2sh.go:20-48"]}
{"id": "C126", "title": "What the library signs is valid under Bitcoin's script rules, end to end", "statement": "If every input of a transaction comes from a coin and is signed with the keys of that coin (SignIndex, in any order and any number of times, or through the builder), then what the library serialises is the wire form of a transaction each of whose inputs may spend its coin by the rules of Bitcoin: original or BIP143 signature hash for the hash type used, BIP66 signatures, secp256k1, BIP16, BIP141, and the limits.", "quantifier": "every transaction, every coin of the four standard kinds, every list of keys and calls, every hash function, secp256k1 as implemented", "why_tests_cant": "Tests verify with the library's own Verify, which shares its signature hashes with signing; a hash that is not Bitcoin's passes them. Bitcoin's rules are a separate specification here, and the claim is about all transactions.", "anchors": ["xcore/transaction.go:249-520", "xcore/transaction.go:560-734", "xcore/transactionbuilder.go:165-330", "xcore/script_p2pkh.go:45-62", "xcore/script_p2sh.go:40-64", "xcore/script_p2wpkh_v0.go:45-63", "xcore/script_p2wsh_v0.go:40-83"]}
{"id": "C127", "title": "Verify gives the verdict of Bitcoin's script rules on a received transaction", "statement": "For the bytes of any transaction and the coins that it spends: after Deserialize (or DeserializeNoWitness) and SetTxIn with each coin, Verify accepts if and only if every input may spend its coin by the rules of Bitcoin (signature hashes, BIP66, secp256k1, BIP16, BIP141).", "quantifier": "every transaction on the wire, every list of coins, every hash function, secp256k1 as implemented", "why_tests_cant": "Tests verify a few recorded transactions that are valid; whether an invalid one is ever accepted, or a valid one refused, is about all transactions, all signatures and all keys, and needs a specification of Bitcoin's rules beside the library's own.", "anchors": ["xcore/transaction.go:142-170", "xcore/transaction.go:495-560", "xcore/transaction.go:623-734", "xcrypto/signature_ecdsa.go", "xcrypto/pubkey.go"]}
{"id": "C128", "title": "Verify gives the verdict of Bitcoin's script rules on received multi-signature spendings", "statement": "For the bytes of any transaction that spends coins of key hashes and coins of script hashes (P2SH, P2WSH) by the signatures of an m-of-n script, in any combination: after Deserialize and SetTxIn with each coin and its redeem script, Verify accepts if and only if every input may spend its coin by the rules of Bitcoin.", "quantifier": "every transaction on the wire, every list of coins and redeem scripts, every m, every list of at most 16 keys, all signatures, every hash function, secp256k1 as implemented", "why_tests_cant": "Tests verify one or two multi-signature transactions with the right signatures. Which subsets of signatures in which order are accepted, for all scripts and all mixtures of inputs that share digest caches, and whether Bitcoin agrees, is not a matter of samples.", "anchors": ["xcore/transaction.go:142-170", "xcore/transaction.go:495-560", "xcore/transaction.go:623-734", "xvm/engine.go:89-114", "xvm/instruction_crypto.go", "xcore/script_p2wsh_v0.go:49-116"]}
{"id": "C129", "title": "Publishing the signature of a scriptless exchange gives the secret away", "statement": "After a scriptless ECDSA exchange, from every signature whatever that EcdsaVerify accepts for the hash under the shared key with the shared point, Alice's phase 6 computes Bob's secret; before that she holds no signature. This holds whatever the other party sends.", "quantifier": "every pair of keys, nonces, secret, hash, Paillier keys, every accepted signature, every message of the counterpart", "why_tests_cant": "The test runs one exchange between two honest parties with fixed keys and hands Bob's number of phase 5 to Alice. The claim is about all accepted signatures and about counterparts that deviate.", "anchors": ["xcrypto/scriptless_ecdsa.go:48-68", "xcrypto/scriptless_ecdsa.go:113-144", "xcrypto/signature_ecdsa.go:55-66", "examples/scriptless_ecdsa.go"]}
{"id": "C130", "title": "A party of two-party ECDSA that reports a signature reports a valid one", "statement": "Whatever public key, point and ciphertext the counterpart sends: if phase 5 of a party (or phase 6 of Bob in the scriptless exchange) returns a signature and no error, EcdsaVerify accepts it for the party's hash under the shared public key.", "quantifier": "every private key, nonce, hash and Paillier key, every point as public key and as R of the counterpart, every number as ciphertext", "why_tests_cant": "The tests run two honest parties; the claim is about everything a counterpart can send, a number of 4096 bits among it.", "anchors": ["xcrypto/mpc_ecdsa.go:143-164", "xcrypto/scriptless_ecdsa.go:113-144", "xcrypto/paillier/paillier.go:87-98", "xcrypto/signature_ecdsa.go:55-66"]}
{"id": "C131", "title": "No coin is spent twice and no value is created", "statement": "A transaction that Verify accepts pays out no more than its inputs hold and spends no coin twice; a transaction the builder makes spends no coin twice; Fees is negative exactly when more is paid out than taken in.", "quantifier": "every transaction, signature scheme and hash function; every sequence of builder calls", "why_tests_cant": "The tests verify honest transactions; that a field is never read, and that a check is missing, concerns all transactions.", "anchors": ["xcore/transaction.go:684-734", "xcore/transaction.go:802-814", "xcore/transactionbuilder.go"]}
{"id": "C132", "title": "Two connected peers can talk to each other", "statement": "Two peers each start the read loop of their connection and send a message to the other: both messages are handed over. Whatever the two do, each receive handler is called for the messages of the other in the order sent, and neither makes the other disconnect or crash.", "quantifier": "every run of two connections over one wire: any goroutines, handlers that send, any division of the bytes, deadlines and Close at any time", "why_tests_cant": "The tests run one schedule in which the messages happen to pass; that two waiting loops can never hand over a message to both sides concerns all schedules.", "anchors": ["xprotocol/connection.go:39-71", "xprotocol/stream.go:62-128"]}
{"id": "C133", "title": "A party of two-party Schnorr that reports a signature reports a valid one", "statement": "Whatever byte strings the counterpart sends as its part of the signature: if phase 5 of a Schnorr party returns a signature and no error, SchnorrVerify accepts it for the party's hash under the shared public key.", "quantifier": "every party, shared key, shared point, hash, and every list of byte strings of any number and lengths", "why_tests_cant": "The tests pass the parts of two honest parties; that nothing sent by the other side is ever checked concerns all inputs.", "anchors": ["xcrypto/mpc_schnorr.go:81-124"]}
{"id": "C134", "title": "Scripts and addresses correspond", "statement": "Every locking script that is parsed has an address; the locking script of that address, and of the address read from its text on either network, is the script itself. Conversely the locking script of an address read from a text is parsed and has that address. Different scripts have different texts.", "quantifier": "every byte string parsed as locking script, every text accepted as address, both networks", "why_tests_cant": "Tests convert a few scripts and texts; that a round trip never changes where the money goes concerns all of them.", "anchors": ["xcore/script_p2pkh.go:25-27", "xcore/script_p2sh.go:25-27", "xcore/script_p2wpkh_v0.go:26-28", "xcore/script_p2wsh_v0.go:30-32", "xcore/address.go:33-74", "xcore/script.go:62-78"]}
{"id": "C135", "title": "The shared key is a new key", "statement": "The shared key that phase 1 of a two-party run returns is not the public key of the party itself, so what two parties sign together is never a signature under the key of one of them.", "quantifier": "every private key of the party, every key presented by the counterpart, with ECDSA and with Schnorr", "why_tests_cant": "The tests run phase 1 with a few honestly made keys; the claim is about every key a counterpart can present.", "anchors": ["xcrypto/mpc_ecdsa.go:52-59", "xcrypto/mpc_schnorr.go:41-46", "xcrypto/mpc_schnorr.go:50-124", "xcrypto/pubkey.go:33-111"]}
{"id": "C136", "title": "A Merkle root determines the leaves", "statement": "Two lists of leaves with the same root are the same list, or two different inputs with the same hash have been exhibited; the numbers of leaves are not given.", "quantifier": "every two non-empty lists of 32-byte leaves, of any lengths", "why_tests_cant": "The tests compare single roots with expected values; lists that collide in structure (repeated leaves, leaves that are inner nodes, zero leaves) exist at sizes no test compares.", "anchors": ["xcrypto/merkle.go:42-84"]}
{"id": "C137", "title": "A transaction built with a lock time waits for it", "statement": "A transaction built after SetLockTime(t) with t > 0 cannot be put into a block before the height or time t.", "quantifier": "every sequence of builder calls, every lock time, every block height and time", "why_tests_cant": "The tests check that the transaction builds and serialises; whether a node would hold it back is a rule of Bitcoin about the lock time and all sequence numbers together that no test in the project states.", "anchors": ["xcore/transactionbuilder.go:138-142", "xcore/transactionbuilder.go:290-291", "xcore/transaction.go:22", "xcore/transaction.go:85", "xcore/transaction.go:136-138"]}
{"id": "C138", "title": "The outputs of a built transaction are passed on by nodes", "statement": "A transaction the builder makes has outputs of standard forms and of at least the least amount (dust limit) for their kind, and at most one data output, of at most 80 bytes.", "quantifier": "every builder configuration with addresses as the constructors make them, every signature scheme and hash function", "why_tests_cant": "The tests build transactions with round amounts; change of a few satoshi or a second piece of data appears only for particular sums and is refused only by the network.", "anchors": ["xcore/transactionbuilder.go:210-234", "xcore/transactionbuilder.go:264-317"]}
{"id": "C139", "title": "A payment can be spent by its receiver only", "statement": "Every input that may spend an output made by To(address, amount) by the rules of Bitcoin shows a key with the hash of the address and a signature of the transaction by it, or a script with that hash.", "quantifier": "every builder configuration, every address including nil, every later transaction", "why_tests_cant": "The tests pay to addresses made from hashes of the right length; a nil address, which the constructors return without an error for any other length, is never paid to.", "anchors": ["xcore/transactionbuilder.go:210-234", "xcore/address_p2pkh.go:23-33", "xcore/address_p2sh.go:23-33", "xcore/address_p2wpkh_v0.go:28-39", "xcore/address_p2wsh_v0.go:27-38"]}
{"id": "C140", "title": "A built transaction passes the checks every node makes first", "statement": "A transaction the builder makes has inputs and outputs, spends no outpoint twice and only real ones, pays no more than all the money in any output or in total, and is within the size limit (CheckTransaction).", "quantifier": "every builder configuration, every signature scheme and hash function", "why_tests_cant": "The tests build a handful of transactions from different coins with small amounts; coins given twice, outpoints of no coin, large amounts and long data are not among them.", "anchors": ["xcore/transactionbuilder.go:165-317"]}
{"id": "C141", "title": "A transaction built for a relay fee pays that fee", "statement": "A transaction built and signed after SetRelayFeePerKb(rate) pays at least rate satoshi per thousand virtual bytes.", "quantifier": "every builder configuration with a positive rate and totals that do not overflow, every signature scheme and hash function", "why_tests_cant": "The tests check that a fee is set; that it falls short shows only when the size of the signed transaction is compared with the estimate for each kind of coin, with and without change.", "anchors": ["xcore/transactionbuilder.go:247-262", "xcore/estimate.go:44-97", "xcore/estimate.go:126-132"]}
