import Verif.Check.Engine
import Verif.Model.Merkle
import Verif.Model.Protocol
import Verif.Model.Mpc
/-
The model run on the vectors of the tests of xcrypto and xprotocol in /repo. These are checks that the model computes what the
code computes, not properties.
-/
namespace Toku.Check

attribute [local instance] Sha.realHashes

private def refused {α : Type} : Res α → Bool
  | .err _ => true
  | _ => false

/-- xcrypto/hash_test.go:17-50 -/
example : Hashes.sha256 [0x53, 0x68, 0x61, 0x32, 0x35, 0x36] = [0x6a, 0x32, 0x3e, 0xf9, 0xe4, 0xe7, 0x0f, 0xf8, 0x72, 0xdc, 0xd0, 0xef, 0x1e, 0x78, 0xef, 0xee, 0x84, 0x47, 0x15, 0x17, 0x39, 0x3e, 0x93, 0xdd, 0xb8, 0x30, 0x6a, 0x08, 0xc9, 0x30, 0x32, 0xf7] ∧
    sha256d [0x44, 0x6f, 0x75, 0x62, 0x6c, 0x65, 0x53, 0x68, 0x61, 0x32, 0x35, 0x36] = [0x6d, 0xc2, 0xd4, 0x2e, 0x58, 0x31, 0x62, 0xda, 0xc8, 0xef, 0x92, 0xd5, 0xc3, 0x05, 0xf9, 0x14, 0x95, 0x1e, 0x10, 0x3c, 0x89, 0xb7, 0xd5, 0x8a, 0x27, 0xc5, 0x57, 0x21, 0x78, 0xfa, 0x5b, 0xf5] ∧
    Ripemd.ripemd160 [0x52, 0x69, 0x70, 0x65, 0x6d, 0x64, 0x31, 0x36, 0x30] = .ok [0xe5, 0xb3, 0x81, 0x31, 0x87, 0x47, 0x55, 0x79, 0x2f, 0xfa, 0x2a, 0xf4, 0xd8, 0x40, 0x0a, 0x8e, 0xa4, 0xf8, 0xda, 0xc4] ∧
    hash160 [0x48, 0x61, 0x73, 0x68, 0x31, 0x36, 0x30] = [0xe6, 0x24, 0x33, 0x32, 0x90, 0xd1, 0x6e, 0x4b, 0xef, 0x67, 0x8e, 0xc2, 0xeb, 0xa7, 0x00, 0x63, 0xf7, 0x05, 0x44, 0xe2] := by decide +kernel

/-- xcrypto/ripemd160/ripemd160_test.go:21-57: at once, and in two writes with a `Sum` between them that does not count -/
example : ∀ p ∈ ([
    ([], [0x9c, 0x11, 0x85, 0xa5, 0xc5, 0xe9, 0xfc, 0x54, 0x61, 0x28, 0x08, 0x97, 0x7e, 0xe8, 0xf5, 0x48, 0xb2, 0x25, 0x8d, 0x31]),
    ([0x61], [0x0b, 0xdc, 0x9d, 0x2d, 0x25, 0x6b, 0x3e, 0xe9, 0xda, 0xae, 0x34, 0x7b, 0xe6, 0xf4, 0xdc, 0x83, 0x5a, 0x46, 0x7f, 0xfe]),
    ([0x61, 0x62, 0x63], [0x8e, 0xb2, 0x08, 0xf7, 0xe0, 0x5d, 0x98, 0x7a, 0x9b, 0x04, 0x4a, 0x8e, 0x98, 0xc6, 0xb0, 0x87, 0xf1, 0x5a, 0x0b, 0xfc]),
    ([0x6d, 0x65, 0x73, 0x73, 0x61, 0x67, 0x65, 0x20, 0x64, 0x69, 0x67, 0x65, 0x73, 0x74], [0x5d, 0x06, 0x89, 0xef, 0x49, 0xd2, 0xfa, 0xe5, 0x72, 0xb8, 0x81, 0xb1, 0x23, 0xa8, 0x5f, 0xfa, 0x21, 0x59, 0x5f, 0x36]),
    ([0x61, 0x62, 0x63, 0x64, 0x65, 0x66, 0x67, 0x68, 0x69, 0x6a, 0x6b, 0x6c, 0x6d, 0x6e, 0x6f, 0x70, 0x71, 0x72, 0x73, 0x74, 0x75, 0x76, 0x77, 0x78, 0x79, 0x7a], [0xf7, 0x1c, 0x27, 0x10, 0x9c, 0x69, 0x2c, 0x1b, 0x56, 0xbb, 0xdc, 0xeb, 0x5b, 0x9d, 0x28, 0x65, 0xb3, 0x70, 0x8d, 0xbc]),
    ([0x61, 0x62, 0x63, 0x64, 0x62, 0x63, 0x64, 0x65, 0x63, 0x64, 0x65, 0x66, 0x64, 0x65, 0x66, 0x67, 0x65, 0x66, 0x67, 0x68, 0x66, 0x67, 0x68, 0x69, 0x67, 0x68, 0x69, 0x6a, 0x68, 0x69, 0x6a, 0x6b, 0x69, 0x6a, 0x6b, 0x6c, 0x6a, 0x6b, 0x6c, 0x6d, 0x6b, 0x6c, 0x6d, 0x6e, 0x6c, 0x6d, 0x6e, 0x6f, 0x6d, 0x6e, 0x6f, 0x70, 0x6e, 0x6f, 0x70, 0x71], [0x12, 0xa0, 0x53, 0x38, 0x4a, 0x9c, 0x0c, 0x88, 0xe4, 0x05, 0xa0, 0x6c, 0x27, 0xdc, 0xf4, 0x9a, 0xda, 0x62, 0xeb, 0x2b]),
    ([0x41, 0x42, 0x43, 0x44, 0x45, 0x46, 0x47, 0x48, 0x49, 0x4a, 0x4b, 0x4c, 0x4d, 0x4e, 0x4f, 0x50, 0x51, 0x52, 0x53, 0x54, 0x55, 0x56, 0x57, 0x58, 0x59, 0x5a, 0x61, 0x62, 0x63, 0x64, 0x65, 0x66, 0x67, 0x68, 0x69, 0x6a, 0x6b, 0x6c, 0x6d, 0x6e, 0x6f, 0x70, 0x71, 0x72, 0x73, 0x74, 0x75, 0x76, 0x77, 0x78, 0x79, 0x7a, 0x30, 0x31, 0x32, 0x33, 0x34, 0x35, 0x36, 0x37, 0x38, 0x39], [0xb0, 0xe2, 0x0b, 0x6e, 0x31, 0x16, 0x64, 0x02, 0x86, 0xed, 0x3a, 0x87, 0xa5, 0x71, 0x30, 0x79, 0xb2, 0x1f, 0x51, 0x89]),
    ([0x31, 0x32, 0x33, 0x34, 0x35, 0x36, 0x37, 0x38, 0x39, 0x30, 0x31, 0x32, 0x33, 0x34, 0x35, 0x36, 0x37, 0x38, 0x39, 0x30, 0x31, 0x32, 0x33, 0x34, 0x35, 0x36, 0x37, 0x38, 0x39, 0x30, 0x31, 0x32, 0x33, 0x34, 0x35, 0x36, 0x37, 0x38, 0x39, 0x30, 0x31, 0x32, 0x33, 0x34, 0x35, 0x36, 0x37, 0x38, 0x39, 0x30, 0x31, 0x32, 0x33, 0x34, 0x35, 0x36, 0x37, 0x38, 0x39, 0x30, 0x31, 0x32, 0x33, 0x34, 0x35, 0x36, 0x37, 0x38, 0x39, 0x30, 0x31, 0x32, 0x33, 0x34, 0x35, 0x36, 0x37, 0x38, 0x39, 0x30], [0x9b, 0x75, 0x2e, 0x45, 0x57, 0x3d, 0x4b, 0x39, 0xf4, 0xdb, 0xd3, 0x32, 0x3c, 0xab, 0x82, 0xbf, 0x63, 0x32, 0x6b, 0xfb])] : List (Bytes × Bytes)),
    Ripemd.ripemd160 p.1 = .ok p.2 ∧
    Ripemd.sum (Ripemd.write (Ripemd.write Ripemd.new (p.1.take (p.1.length / 2))) (p.1.drop (p.1.length / 2))) = .ok p.2 ∧
    Ripemd.sum (Ripemd.write (Ripemd.reset (Ripemd.write Ripemd.new p.1)) p.1) = .ok p.2 := by decide +kernel

/-- xcrypto/merkle_test.go:14-93: the root, the proof of the last leaf, and no proof for another hash -/
example : ∀ p ∈ ([
    ([none], none),
    ([some [0x41]], some [0x41]),
    ([some [0x41], some [0x42]], some [0x5d, 0x60, 0xdc, 0x7f, 0xf4, 0xb5, 0xa3, 0x86, 0x1f, 0x98, 0x67, 0x19, 0xc6, 0x04, 0x6a, 0x66, 0xbb, 0xdb, 0x3a, 0x76, 0x0e, 0x81, 0xe4, 0xe6, 0xfe, 0x8e, 0xc5, 0x9e, 0xd4, 0x58, 0x8c, 0xbe]),
    ([some [0x43], some [0x44]], some [0xdf, 0x13, 0xc2, 0x0e, 0x5a, 0xbc, 0x89, 0xfd, 0x71, 0xd5, 0xdd, 0x16, 0x61, 0x1f, 0xf3, 0x30, 0xfe, 0xbb, 0x01, 0xf3, 0x6d, 0x78, 0x8e, 0x5c, 0xfe, 0xd7, 0x4d, 0xde, 0xbc, 0xab, 0x86, 0x04]),
    ([some [0x5d, 0x60, 0xdc, 0x7f, 0xf4, 0xb5, 0xa3, 0x86, 0x1f, 0x98, 0x67, 0x19, 0xc6, 0x04, 0x6a, 0x66, 0xbb, 0xdb, 0x3a, 0x76, 0x0e, 0x81, 0xe4, 0xe6, 0xfe, 0x8e, 0xc5, 0x9e, 0xd4, 0x58, 0x8c, 0xbe], some [0xdf, 0x13, 0xc2, 0x0e, 0x5a, 0xbc, 0x89, 0xfd, 0x71, 0xd5, 0xdd, 0x16, 0x61, 0x1f, 0xf3, 0x30, 0xfe, 0xbb, 0x01, 0xf3, 0x6d, 0x78, 0x8e, 0x5c, 0xfe, 0xd7, 0x4d, 0xde, 0xbc, 0xab, 0x86, 0x04]], some [0x42, 0x2d, 0x90, 0x49, 0x41, 0xb2, 0xcf, 0x4e, 0x59, 0x2c, 0x7d, 0x81, 0x5c, 0xe5, 0xa2, 0xca, 0x52, 0xd1, 0x98, 0x9e, 0xc2, 0x94, 0xd0, 0x0e, 0x16, 0x48, 0xcd, 0x81, 0x62, 0x4c, 0x2c, 0xfb]),
    ([some [0x41], some [0x42], some [0x43]], some [0x3a, 0xe5, 0x59, 0x9f, 0xda, 0x6a, 0xd7, 0x6b, 0x74, 0xc2, 0xee, 0x34, 0x01, 0x3a, 0x18, 0x62, 0xae, 0xef, 0x64, 0x51, 0xe2, 0x3c, 0xe5, 0x8e, 0xd5, 0xa4, 0x9a, 0xba, 0xc8, 0x28, 0xfd, 0x35]),
    ([some [0x41], some [0x42], some [0x43], some [0x43]], some [0x3a, 0xe5, 0x59, 0x9f, 0xda, 0x6a, 0xd7, 0x6b, 0x74, 0xc2, 0xee, 0x34, 0x01, 0x3a, 0x18, 0x62, 0xae, 0xef, 0x64, 0x51, 0xe2, 0x3c, 0xe5, 0x8e, 0xd5, 0xa4, 0x9a, 0xba, 0xc8, 0x28, 0xfd, 0x35]),
    ([some [0x41], some [0x42], some [0x43], some [0x44]], some [0x42, 0x2d, 0x90, 0x49, 0x41, 0xb2, 0xcf, 0x4e, 0x59, 0x2c, 0x7d, 0x81, 0x5c, 0xe5, 0xa2, 0xca, 0x52, 0xd1, 0x98, 0x9e, 0xc2, 0x94, 0xd0, 0x0e, 0x16, 0x48, 0xcd, 0x81, 0x62, 0x4c, 0x2c, 0xfb]),
    ([some [0x41], some [0x42], some [0x43], some [0x44], some [0x45]], some [0xb1, 0x75, 0xd7, 0x06, 0x6a, 0xd3, 0x9d, 0x26, 0xe0, 0x4a, 0xda, 0x4f, 0x50, 0x17, 0x1c, 0x8e, 0x4b, 0x39, 0x21, 0x0b, 0xca, 0x59, 0xeb, 0xa9, 0xa7, 0x9e, 0xa2, 0x99, 0xb6, 0x7b, 0x2c, 0xfb]),
    ([some [0x41], some [0x42], some [0x43], some [0x44], some [0x45], some [0x45], some [0x45], some [0x45]], some [0xb1, 0x75, 0xd7, 0x06, 0x6a, 0xd3, 0x9d, 0x26, 0xe0, 0x4a, 0xda, 0x4f, 0x50, 0x17, 0x1c, 0x8e, 0x4b, 0x39, 0x21, 0x0b, 0xca, 0x59, 0xeb, 0xa9, 0xa7, 0x9e, 0xa2, 0x99, 0xb6, 0x7b, 0x2c, 0xfb])] : List (Merkle.Level × Option Bytes)),
    ((Merkle.newMerkle p.1).bind fun m => (Merkle.root m).bind fun r =>
      (Merkle.proofs m ((p.1.getLast?.join).getD [])).bind fun path =>
        (Merkle.proofs m [1]).bind fun none => .ok (r, Merkle.verify ((p.1.getLast?.join).getD []) (r.getD []) path, none)) =
      .ok (p.2, true, []) := by decide +kernel

/-- xcrypto/pubkey_test.go:22-221, valid keys: read and written again -/
example : (Keys.pubFromBytes [0x04, 0x11, 0xdb, 0x93, 0xe1, 0xdc, 0xdb, 0x8a, 0x01, 0x6b, 0x49, 0x84, 0x0f, 0x8c, 0x53, 0xbc, 0x1e, 0xb6, 0x8a, 0x38, 0x2e, 0x97, 0xb1, 0x48, 0x2e, 0xca, 0xd7, 0xb1, 0x48, 0xa6, 0x90, 0x9a, 0x5c, 0xb2, 0xe0, 0xea, 0xdd, 0xfb, 0x84, 0xcc, 0xf9, 0x74, 0x44, 0x64, 0xf8, 0x2e, 0x16, 0x0b, 0xfa, 0x9b, 0x8b, 0x64, 0xf9, 0xd4, 0xc0, 0x3f, 0x99, 0x9b, 0x86, 0x43, 0xf6, 0x56, 0xb4, 0x12, 0xa3] >>= Keys.serializeUncompressed) =
    .ok [0x04, 0x11, 0xdb, 0x93, 0xe1, 0xdc, 0xdb, 0x8a, 0x01, 0x6b, 0x49, 0x84, 0x0f, 0x8c, 0x53, 0xbc, 0x1e, 0xb6, 0x8a, 0x38, 0x2e, 0x97, 0xb1, 0x48, 0x2e, 0xca, 0xd7, 0xb1, 0x48, 0xa6, 0x90, 0x9a, 0x5c, 0xb2, 0xe0, 0xea, 0xdd, 0xfb, 0x84, 0xcc, 0xf9, 0x74, 0x44, 0x64, 0xf8, 0x2e, 0x16, 0x0b, 0xfa, 0x9b, 0x8b, 0x64, 0xf9, 0xd4, 0xc0, 0x3f, 0x99, 0x9b, 0x86, 0x43, 0xf6, 0x56, 0xb4, 0x12, 0xa3] := by decide +kernel
example : (Keys.pubFromBytes [0x07, 0x11, 0xdb, 0x93, 0xe1, 0xdc, 0xdb, 0x8a, 0x01, 0x6b, 0x49, 0x84, 0x0f, 0x8c, 0x53, 0xbc, 0x1e, 0xb6, 0x8a, 0x38, 0x2e, 0x97, 0xb1, 0x48, 0x2e, 0xca, 0xd7, 0xb1, 0x48, 0xa6, 0x90, 0x9a, 0x5c, 0xb2, 0xe0, 0xea, 0xdd, 0xfb, 0x84, 0xcc, 0xf9, 0x74, 0x44, 0x64, 0xf8, 0x2e, 0x16, 0x0b, 0xfa, 0x9b, 0x8b, 0x64, 0xf9, 0xd4, 0xc0, 0x3f, 0x99, 0x9b, 0x86, 0x43, 0xf6, 0x56, 0xb4, 0x12, 0xa3] >>= Keys.serializeHybrid) =
    .ok [0x07, 0x11, 0xdb, 0x93, 0xe1, 0xdc, 0xdb, 0x8a, 0x01, 0x6b, 0x49, 0x84, 0x0f, 0x8c, 0x53, 0xbc, 0x1e, 0xb6, 0x8a, 0x38, 0x2e, 0x97, 0xb1, 0x48, 0x2e, 0xca, 0xd7, 0xb1, 0x48, 0xa6, 0x90, 0x9a, 0x5c, 0xb2, 0xe0, 0xea, 0xdd, 0xfb, 0x84, 0xcc, 0xf9, 0x74, 0x44, 0x64, 0xf8, 0x2e, 0x16, 0x0b, 0xfa, 0x9b, 0x8b, 0x64, 0xf9, 0xd4, 0xc0, 0x3f, 0x99, 0x9b, 0x86, 0x43, 0xf6, 0x56, 0xb4, 0x12, 0xa3] := by decide +kernel
example : (Keys.pubFromBytes [0x02, 0xce, 0x0b, 0x14, 0xfb, 0x84, 0x2b, 0x1b, 0xa5, 0x49, 0xfd, 0xd6, 0x75, 0xc9, 0x80, 0x75, 0xf1, 0x2e, 0x9c, 0x51, 0x0f, 0x8e, 0xf5, 0x2b, 0xd0, 0x21, 0xa9, 0xa1, 0xf4, 0x80, 0x9d, 0x3b, 0x4d] >>= Keys.serializeCompressed) =
    .ok [0x02, 0xce, 0x0b, 0x14, 0xfb, 0x84, 0x2b, 0x1b, 0xa5, 0x49, 0xfd, 0xd6, 0x75, 0xc9, 0x80, 0x75, 0xf1, 0x2e, 0x9c, 0x51, 0x0f, 0x8e, 0xf5, 0x2b, 0xd0, 0x21, 0xa9, 0xa1, 0xf4, 0x80, 0x9d, 0x3b, 0x4d] := by decide +kernel
example : (Keys.pubFromBytes [0x03, 0x26, 0x89, 0xc7, 0xc2, 0xda, 0xb1, 0x33, 0x09, 0xfb, 0x14, 0x3e, 0x0e, 0x8f, 0xe3, 0x96, 0x34, 0x25, 0x21, 0x88, 0x7e, 0x97, 0x66, 0x90, 0xb6, 0xb4, 0x7f, 0x5b, 0x2a, 0x4b, 0x7d, 0x44, 0x8e] >>= Keys.serializeCompressed) =
    .ok [0x03, 0x26, 0x89, 0xc7, 0xc2, 0xda, 0xb1, 0x33, 0x09, 0xfb, 0x14, 0x3e, 0x0e, 0x8f, 0xe3, 0x96, 0x34, 0x25, 0x21, 0x88, 0x7e, 0x97, 0x66, 0x90, 0xb6, 0xb4, 0x7f, 0x5b, 0x2a, 0x4b, 0x7d, 0x44, 0x8e] := by decide +kernel
example : (Keys.pubFromBytes [0x06, 0x79, 0xbe, 0x66, 0x7e, 0xf9, 0xdc, 0xbb, 0xac, 0x55, 0xa0, 0x62, 0x95, 0xce, 0x87, 0x0b, 0x07, 0x02, 0x9b, 0xfc, 0xdb, 0x2d, 0xce, 0x28, 0xd9, 0x59, 0xf2, 0x81, 0x5b, 0x16, 0xf8, 0x17, 0x98, 0x48, 0x3a, 0xda, 0x77, 0x26, 0xa3, 0xc4, 0x65, 0x5d, 0xa4, 0xfb, 0xfc, 0x0e, 0x11, 0x08, 0xa8, 0xfd, 0x17, 0xb4, 0x48, 0xa6, 0x85, 0x54, 0x19, 0x9c, 0x47, 0xd0, 0x8f, 0xfb, 0x10, 0xd4, 0xb8] >>= Keys.serializeHybrid) =
    .ok [0x06, 0x79, 0xbe, 0x66, 0x7e, 0xf9, 0xdc, 0xbb, 0xac, 0x55, 0xa0, 0x62, 0x95, 0xce, 0x87, 0x0b, 0x07, 0x02, 0x9b, 0xfc, 0xdb, 0x2d, 0xce, 0x28, 0xd9, 0x59, 0xf2, 0x81, 0x5b, 0x16, 0xf8, 0x17, 0x98, 0x48, 0x3a, 0xda, 0x77, 0x26, 0xa3, 0xc4, 0x65, 0x5d, 0xa4, 0xfb, 0xfc, 0x0e, 0x11, 0x08, 0xa8, 0xfd, 0x17, 0xb4, 0x48, 0xa6, 0x85, 0x54, 0x19, 0x9c, 0x47, 0xd0, 0x8f, 0xfb, 0x10, 0xd4, 0xb8] := by decide +kernel

/-- xcrypto/pubkey_test.go:22-221, keys that are refused -/
example : ∀ k ∈ ([
    [0x04, 0x15, 0xdb, 0x93, 0xe1, 0xdc, 0xdb, 0x8a, 0x01, 0x6b, 0x49, 0x84, 0x0f, 0x8c, 0x53, 0xbc, 0x1e, 0xb6, 0x8a, 0x38, 0x2e, 0x97, 0xb1, 0x48, 0x2e, 0xca, 0xd7, 0xb1, 0x48, 0xa6, 0x90, 0x9a, 0x5c, 0xb2, 0xe0, 0xea, 0xdd, 0xfb, 0x84, 0xcc, 0xf9, 0x74, 0x44, 0x64, 0xf8, 0x2e, 0x16, 0x0b, 0xfa, 0x9b, 0x8b, 0x64, 0xf9, 0xd4, 0xc0, 0x3f, 0x99, 0x9b, 0x86, 0x43, 0xf6, 0x56, 0xb4, 0x12, 0xa3],
    [0x04, 0x11, 0xdb, 0x93, 0xe1, 0xdc, 0xdb, 0x8a, 0x01, 0x6b, 0x49, 0x84, 0x0f, 0x8c, 0x53, 0xbc, 0x1e, 0xb6, 0x8a, 0x38, 0x2e, 0x97, 0xb1, 0x48, 0x2e, 0xca, 0xd7, 0xb1, 0x48, 0xa6, 0x90, 0x9a, 0x5c, 0xb2, 0xe0, 0xea, 0xdd, 0xfb, 0x84, 0xcc, 0xf9, 0x74, 0x44, 0x64, 0xf8, 0x2e, 0x16, 0x0b, 0xfa, 0x9b, 0x8b, 0x64, 0xf9, 0xd4, 0xc0, 0x3f, 0x99, 0x9b, 0x86, 0x43, 0xf6, 0x56, 0xb4, 0x12, 0xa4],
    [0x03, 0x11, 0xdb, 0x93, 0xe1, 0xdc, 0xdb, 0x8a, 0x01, 0x6b, 0x49, 0x84, 0x0f, 0x8c, 0x53, 0xbc, 0x1e, 0xb6, 0x8a, 0x38, 0x2e, 0x97, 0xb1, 0x48, 0x2e, 0xca, 0xd7, 0xb1, 0x48, 0xa6, 0x90, 0x9a, 0x5c, 0xb2, 0xe0, 0xea, 0xdd, 0xfb, 0x84, 0xcc, 0xf9, 0x74, 0x44, 0x64, 0xf8, 0x2e, 0x16, 0x0b, 0xfa, 0x9b, 0x8b, 0x64, 0xf9, 0xd4, 0xc0, 0x3f, 0x99, 0x9b, 0x86, 0x43, 0xf6, 0x56, 0xb4, 0x12, 0xa3],
    [0x06, 0x11, 0xdb, 0x93, 0xe1, 0xdc, 0xdb, 0x8a, 0x01, 0x6b, 0x49, 0x84, 0x0f, 0x8c, 0x53, 0xbc, 0x1e, 0xb6, 0x8a, 0x38, 0x2e, 0x97, 0xb1, 0x48, 0x2e, 0xca, 0xd7, 0xb1, 0x48, 0xa6, 0x90, 0x9a, 0x5c, 0xb2, 0xe0, 0xea, 0xdd, 0xfb, 0x84, 0xcc, 0xf9, 0x74, 0x44, 0x64, 0xf8, 0x2e, 0x16, 0x0b, 0xfa, 0x9b, 0x8b, 0x64, 0xf9, 0xd4, 0xc0, 0x3f, 0x99, 0x9b, 0x86, 0x43, 0xf6, 0x56, 0xb4, 0x12, 0xa3],
    [0x04, 0xce, 0x0b, 0x14, 0xfb, 0x84, 0x2b, 0x1b, 0xa5, 0x49, 0xfd, 0xd6, 0x75, 0xc9, 0x80, 0x75, 0xf1, 0x2e, 0x9c, 0x51, 0x0f, 0x8e, 0xf5, 0x2b, 0xd0, 0x21, 0xa9, 0xa1, 0xf4, 0x80, 0x9d, 0x3b, 0x4d],
    [0x05, 0x26, 0x89, 0xc7, 0xc2, 0xda, 0xb1, 0x33, 0x09, 0xfb, 0x14, 0x3e, 0x0e, 0x8f, 0xe3, 0x96, 0x34, 0x25, 0x21, 0x88, 0x7e, 0x97, 0x66, 0x90, 0xb6, 0xb4, 0x7f, 0x5b, 0x2a, 0x4b, 0x7d, 0x44, 0x8e],
    [0x05],
    [0x04, 0xff, 0xff, 0xff, 0xff, 0xff, 0xff, 0xff, 0xff, 0xff, 0xff, 0xff, 0xff, 0xff, 0xff, 0xff, 0xff, 0xff, 0xff, 0xff, 0xff, 0xff, 0xff, 0xff, 0xff, 0xff, 0xff, 0xff, 0xfe, 0xff, 0xff, 0xfc, 0x2f, 0xb2, 0xe0, 0xea, 0xdd, 0xfb, 0x84, 0xcc, 0xf9, 0x74, 0x44, 0x64, 0xf8, 0x2e, 0x16, 0x0b, 0xfa, 0x9b, 0x8b, 0x64, 0xf9, 0xd4, 0xc0, 0x3f, 0x99, 0x9b, 0x86, 0x43, 0xf6, 0x56, 0xb4, 0x12, 0xa3],
    [0x04, 0xff, 0xff, 0xff, 0xff, 0xff, 0xff, 0xff, 0xff, 0xff, 0xff, 0xff, 0xff, 0xff, 0xff, 0xff, 0xff, 0xff, 0xff, 0xff, 0xff, 0xff, 0xff, 0xff, 0xff, 0xff, 0xff, 0xff, 0xfe, 0xff, 0xff, 0xfd, 0x2f, 0xb2, 0xe0, 0xea, 0xdd, 0xfb, 0x84, 0xcc, 0xf9, 0x74, 0x44, 0x64, 0xf8, 0x2e, 0x16, 0x0b, 0xfa, 0x9b, 0x8b, 0x64, 0xf9, 0xd4, 0xc0, 0x3f, 0x99, 0x9b, 0x86, 0x43, 0xf6, 0x56, 0xb4, 0x12, 0xa3],
    [0x04, 0x11, 0xdb, 0x93, 0xe1, 0xdc, 0xdb, 0x8a, 0x01, 0x6b, 0x49, 0x84, 0x0f, 0x8c, 0x53, 0xbc, 0x1e, 0xb6, 0x8a, 0x38, 0x2e, 0x97, 0xb1, 0x48, 0x2e, 0xca, 0xd7, 0xb1, 0x48, 0xa6, 0x90, 0x9a, 0x5c, 0xff, 0xff, 0xff, 0xff, 0xff, 0xff, 0xff, 0xff, 0xff, 0xff, 0xff, 0xff, 0xff, 0xff, 0xff, 0xff, 0xff, 0xff, 0xff, 0xff, 0xff, 0xff, 0xff, 0xff, 0xff, 0xff, 0xff, 0xfe, 0xff, 0xff, 0xfc, 0x2f],
    [0x04, 0x11, 0xdb, 0x93, 0xe1, 0xdc, 0xdb, 0x8a, 0x01, 0x6b, 0x49, 0x84, 0x0f, 0x8c, 0x53, 0xbc, 0x1e, 0xb6, 0x8a, 0x38, 0x2e, 0x97, 0xb1, 0x48, 0x2e, 0xca, 0xd7, 0xb1, 0x48, 0xa6, 0x90, 0x9a, 0x5c, 0xff, 0xff, 0xff, 0xff, 0xff, 0xff, 0xff, 0xff, 0xff, 0xff, 0xff, 0xff, 0xff, 0xff, 0xff, 0xff, 0xff, 0xff, 0xff, 0xff, 0xff, 0xff, 0xff, 0xff, 0xff, 0xff, 0xff, 0xfe, 0xff, 0xff, 0xfd, 0x2f]] : List Bytes), refused (Keys.pubFromBytes k) = true := by decide +kernel

/-- xcrypto/pubkey_test.go:266-281 and prvkey_test.go:49-59: adding keys -/
example : (Keys.prvFromBytes [1] >>= fun a => Keys.prvFromBytes [2] >>= fun b => Keys.pubAdd b.pub a.pub) =
    (Keys.prvFromBytes [3] >>= fun c => .ok c.pub) ∧
    (Keys.prvFromBytes [1] >>= fun a => Keys.prvAdd a [2]) = Keys.prvFromBytes [3] := by decide +kernel

/-- xcrypto/prvkey_test.go:15-47 -/
example : (Keys.prvFromBytes [0xea, 0xf0, 0x2c, 0xa3, 0x48, 0xc5, 0x24, 0xe6, 0x39, 0x26, 0x55, 0xba, 0x4d, 0x29, 0x60, 0x3c, 0xd1, 0xa7, 0x34, 0x7d, 0x9d, 0x65, 0xcf, 0xe9, 0x3c, 0xe1, 0xeb, 0xff, 0xdc, 0xa2, 0x26, 0x94] >>= fun k => Keys.serializeUncompressed k.pub >>= Keys.pubFromBytes >>= fun p => .ok (p == k.pub, Keys.prvSerialize k)) =
    .ok (true, [0xea, 0xf0, 0x2c, 0xa3, 0x48, 0xc5, 0x24, 0xe6, 0x39, 0x26, 0x55, 0xba, 0x4d, 0x29, 0x60, 0x3c, 0xd1, 0xa7, 0x34, 0x7d, 0x9d, 0x65, 0xcf, 0xe9, 0x3c, 0xe1, 0xeb, 0xff, 0xdc, 0xa2, 0x26, 0x94]) := by decide +kernel

/-- xcrypto/secp256k1/secp256k1_test.go:29-70 -/
example : Curve.baseMult (natToBE 0xAA5E28D6A97A2479A65527F7290311A3624D4CC0FA1578598EE3C2613BF99522) = .ok (0x34F9460F0E4F08393D192B3C5133A6BA099AA0AD9FD54EBCCFACDFA239FF49C6, 0xB71EA9BD730FD8923F6D25A7A91E7DD7728A960686CB5A901BB419E0F2CA232) := by decide +kernel
example : Curve.baseMult (natToBE 0x7E2B897B8CEBC6361663AD410835639826D590F393D90A9538881735256DFAE3) = .ok (0xD74BF844B0862475103D96A611CF2D898447E288D34B360BC885CB8CE7C00575, 0x131C670D414C4546B88AC3FF664611B1C38CEB1C21D76369D7A7A0969D61D97D) := by decide +kernel
example : Curve.baseMult (natToBE 0x6461E6DF0FE7DFD05329F41BF771B86578143D4DD1F7866FB4CA7E97C5FA945D) = .ok (0xE8AECC370AEDD953483719A116711963CE201AC3EB21D3F3257BB48668C6A72F, 0xC25CAF2F0EBA1DDB2F0F3F47866299EF907867B7D27E95B3873BF98397B24EE1) := by decide +kernel
example : Curve.baseMult (natToBE 0x376A3A2CDCD12581EFFF13EE4AD44C4044B8A0524C42422A7E1E181E4DEECCEC) = .ok (0x14890E61FCD4B0BD92E5B36C81372CA6FED471EF3AA60A3E415EE4FE987DABA1, 0x297B858D9F752AB42D3BCA67EE0EB6DCD1C2B7B0DBE23397E66ADC272263F982) := by decide +kernel
example : Curve.baseMult (natToBE 0x1B22644A7BE026548810C378D0B2994EEFA6D2B9881803CB02CEFF865287D1B9) = .ok (0xF73C65EAD01C5126F28F442D087689BFA08E12763E0CEC1D35B01751FD735ED3, 0xF449A8376906482A84ED01479BD18882B919C140D638307F0C0934BA12590BDE) := by decide +kernel

/-- xcrypto/secp256k1/scalar_test.go:13-28: an addition of points off the curve -/
example : Mpc.Scalar.add ⟨3, 7⟩ ⟨2, 4⟩ =
    .ok ⟨4, 115792089237316195423570985008687907853269984665640564039457584007908834671653⟩ := by decide +kernel

/-- xprotocol/blockheader_test.go:16-37: the hash of block 1 -/
example : Protocol.blockHash ⟨1, [0x6f, 0xe2, 0x8c, 0x0a, 0xb6, 0xf1, 0xb3, 0x72, 0xc1, 0xa6, 0xa2, 0x46, 0xae, 0x63, 0xf7, 0x4f, 0x93, 0x1e, 0x83, 0x65, 0xe1, 0x5a, 0x08, 0x9c, 0x68, 0xd6, 0x19, 0x00, 0x00, 0x00, 0x00, 0x00],
    [0x98, 0x20, 0x51, 0xfd, 0x1e, 0x4b, 0xa7, 0x44, 0xbb, 0xbe, 0x68, 0x0e, 0x1f, 0xee, 0x14, 0x67, 0x7b, 0xa1, 0xa3, 0xc3, 0x54, 0x0b, 0xf7, 0xb1, 0xcd, 0xb6, 0x06, 0xe8, 0x57, 0x23, 0x3e, 0x0e], 1231469665, 486604799, 2573394689⟩ =
    [0x48, 0x60, 0xeb, 0x18, 0xbf, 0x1b, 0x16, 0x20, 0xe3, 0x7e, 0x94, 0x90, 0xfc, 0x8a, 0x42, 0x75, 0x14, 0x41, 0x6f, 0xd7, 0x51, 0x59, 0xab, 0x86, 0x68, 0x8e, 0x9a, 0x83, 0x00, 0x00, 0x00, 0x00] := by decide +kernel

end Toku.Check
