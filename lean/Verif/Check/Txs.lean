import Verif.Check.Vectors
import Verif.Model.Sha
import Verif.Model.TxEcdsa
import Verif.Model.Id
import Verif.Model.Base58
/-
The transactions of /repo/xcore/testdata/tx.json run through the model as TestTransactions does (xcore/transaction_test.go:64-173):
deserialise, supply the spent outputs, verify, compare the identifier. The hash functions and the curve are the real ones. These are
checks that the model computes what the code computes, not properties. (Check/Vectors.lean is imported only so that the two are not built
at the same time, for memory.)
-/
namespace Toku.Check
open Toku.Tx

attribute [local instance] Sha.realHashes

/-- What the test asserts: the result of Verify and the identifier. -/
def runTx (witness : Bool) (data : Bytes) (inputs : List (UInt64 × Bytes × Option Bytes)) : Res (Res Unit × Bytes) := do
  let (tx, _) ← if witness then deserialize Tx.new data else deserializeNoWitness Tx.new data
  let tx ← foldRes (fun tx (p : (UInt64 × Bytes × Option Bytes) × Nat) => setTxIn tx p.2 p.1.1 p.1.2.1 p.1.2.2) tx inputs.zipIdx
  return ((verify (Ecdsa.scheme 4) tx).1, Id.toString (txHash tx))

/-- p2pkh.pay.to.p2pkh -/
example : runTx false [0x02, 0x00, 0x00, 0x00, 0x01, 0x1f, 0xdd, 0xf3, 0xa2, 0x24, 0x70, 0xa9, 0xf6, 0x42, 0x63, 0x80, 0xd0, 0x79, 0xe0, 0x4d, 0xbf, 0xbe, 0xde, 0x7a, 0xac, 0xd2, 0xa2, 0x8c, 0xa3, 0xe5, 0x2f, 0x46, 0x57, 0x04, 0x5f, 0x8d, 0xd9, 0x01, 0x00, 0x00, 0x00, 0x6b, 0x48, 0x30, 0x45, 0x02, 0x21, 0x00, 0xea, 0x7a, 0xe3, 0x04, 0x38, 0x80, 0x41, 0x03, 0xb2, 0xf2, 0xd1, 0xf5, 0x30, 0x7d, 0x1a, 0x48, 0xcc, 0x33, 0xf8, 0xc0, 0x92, 0x8a, 0xd4, 0xee, 0x11, 0xc3, 0x25, 0xc9, 0xa4, 0xa8, 0x8c, 0x4c, 0x02, 0x20, 0x65, 0xf1, 0x78, 0x96, 0xec, 0xdd, 0x4f, 0xec, 0x2b, 0x81, 0x52, 0xa2, 0xe6, 0x14, 0x46, 0x27, 0xcf, 0x16, 0x91, 0x15, 0xb4, 0xca, 0x60, 0x9f, 0xc2, 0x59, 0x7c, 0x78, 0x63, 0x80, 0x59, 0xce, 0x01, 0x21, 0x03, 0x56, 0xaa, 0x08, 0x7d, 0x4e, 0x6d, 0xe1, 0xf6, 0x54, 0x09, 0x42, 0x79, 0xac, 0xa4, 0xc7, 0x94, 0x11, 0x85, 0xf1, 0x4d, 0x5c, 0x2b, 0x41, 0x9e, 0x93, 0x60, 0xfb, 0x35, 0xa9, 0x07, 0x41, 0xf6, 0xfe, 0xff, 0xff, 0xff, 0x02, 0xf2, 0xfa, 0xc5, 0x55, 0x00, 0x00, 0x00, 0x00, 0x19, 0x76, 0xa9, 0x14, 0x62, 0x77, 0x12, 0xcc, 0x1b, 0x5f, 0x97, 0x1c, 0xa0, 0xae, 0xd9, 0x08, 0xbe, 0x68, 0x7c, 0x99, 0x9f, 0x12, 0x8a, 0xa2, 0x88, 0xac, 0x40, 0xd2, 0xdf, 0x03, 0x00, 0x00, 0x00, 0x00, 0x19, 0x76, 0xa9, 0x14, 0x5a, 0x92, 0x7d, 0xda, 0xdc, 0x0e, 0xf3, 0xae, 0x45, 0x01, 0xd0, 0xd9, 0x87, 0x2b, 0x57, 0xc9, 0x58, 0x4b, 0x9d, 0x88, 0x88, 0xac, 0x4c, 0x21, 0x15, 0x00]
    [(1504178262, [0x76, 0xa9, 0x14, 0xb7, 0xf4, 0x22, 0xb9, 0x3f, 0xba, 0xd0, 0xdc, 0x02, 0xd2, 0x27, 0x51, 0x6b, 0x79, 0x09, 0xc0, 0x0d, 0x68, 0x5a, 0xb6, 0x88, 0xac], none)] =
    .ok (.ok (), ascii "b4eb98b535f773f19fd98940ef172049aa861df20a75785653cdff26a6d84d04".toList) := by decide +kernel

/-- funding.multisig.script.hash.from.p2pkh -/
example : runTx false [0x01, 0x00, 0x00, 0x00, 0x01, 0x84, 0x29, 0x78, 0x2c, 0xa4, 0xb9, 0x6d, 0x21, 0xe7, 0x19, 0x72, 0x44, 0xf7, 0x15, 0x6a, 0x6f, 0xdb, 0xbe, 0x29, 0x09, 0x93, 0xcb, 0xc7, 0x1f, 0xb7, 0x59, 0x82, 0xf1, 0xb9, 0xaa, 0x70, 0xb4, 0x00, 0x00, 0x00, 0x00, 0x6b, 0x48, 0x30, 0x45, 0x02, 0x21, 0x00, 0x95, 0xca, 0x08, 0xca, 0x51, 0x6f, 0x94, 0xa7, 0x0a, 0xac, 0xb0, 0x6d, 0xfe, 0x3f, 0xc0, 0xfa, 0xfe, 0x58, 0xed, 0x70, 0xc7, 0x73, 0xf9, 0x88, 0xc1, 0xbc, 0x7a, 0x4b, 0x64, 0xe0, 0x91, 0x1f, 0x02, 0x20, 0x29, 0x09, 0xdf, 0xa5, 0xc5, 0x2a, 0x28, 0x25, 0x4d, 0x74, 0x27, 0xdb, 0x5a, 0xc4, 0x12, 0x3c, 0xf9, 0x3f, 0x00, 0x04, 0x93, 0x0b, 0x4f, 0xfc, 0xf7, 0xd0, 0xbb, 0x2a, 0x63, 0x1c, 0x03, 0x3a, 0x01, 0x21, 0x03, 0xd5, 0x4d, 0x0e, 0xca, 0x57, 0xb6, 0xaf, 0xa2, 0x58, 0x3a, 0x4d, 0xdb, 0xd6, 0x1d, 0x4c, 0x40, 0xe0, 0xfd, 0x9d, 0xb8, 0xbe, 0x04, 0x0e, 0xe1, 0xf2, 0x75, 0xb5, 0xc9, 0x12, 0x9e, 0x1e, 0x55, 0xff, 0xff, 0xff, 0xff, 0x02, 0x70, 0x7d, 0xbf, 0x07, 0x00, 0x00, 0x00, 0x00, 0x19, 0x76, 0xa9, 0x14, 0x5a, 0x92, 0x7d, 0xda, 0xdc, 0x0e, 0xf3, 0xae, 0x45, 0x01, 0xd0, 0xd9, 0x87, 0x2b, 0x57, 0xc9, 0x58, 0x4b, 0x9d, 0x88, 0x88, 0xac, 0xa0, 0x0f, 0x00, 0x00, 0x00, 0x00, 0x00, 0x00, 0x17, 0xa9, 0x14, 0x21, 0x0a, 0x46, 0x1c, 0xed, 0x66, 0xd7, 0x54, 0x0a, 0xd2, 0xf4, 0x64, 0x9b, 0x49, 0xdb, 0xed, 0x7c, 0x9f, 0xcc, 0x28, 0x87, 0x00, 0x00, 0x00, 0x00]
    [(129995000, [0x76, 0xa9, 0x14, 0x5a, 0x92, 0x7d, 0xda, 0xdc, 0x0e, 0xf3, 0xae, 0x45, 0x01, 0xd0, 0xd9, 0x87, 0x2b, 0x57, 0xc9, 0x58, 0x4b, 0x9d, 0x88, 0x88, 0xac], none)] =
    .ok (.ok (), ascii "5af1520f1d3e818fca695c2a903baa4a7eec4954f0b35aa01be1f2c1d2cfd802".toList) := by decide +kernel

/-- spending.multisig.script.hash.to.p2pkh -/
example : runTx false [0x01, 0x00, 0x00, 0x00, 0x01, 0x02, 0xd8, 0xcf, 0xd2, 0xc1, 0xf2, 0xe1, 0x1b, 0xa0, 0x5a, 0xb3, 0xf0, 0x54, 0x49, 0xec, 0x7e, 0x4a, 0xaa, 0x3b, 0x90, 0x2a, 0x5c, 0x69, 0xca, 0x8f, 0x81, 0x3e, 0x1d, 0x0f, 0x52, 0xf1, 0x5a, 0x01, 0x00, 0x00, 0x00, 0xfd, 0xfd, 0x00, 0x00, 0x47, 0x30, 0x44, 0x02, 0x20, 0x43, 0x7c, 0x8b, 0x7c, 0xa7, 0x8d, 0xdb, 0x5a, 0xa2, 0x0b, 0x31, 0x19, 0x45, 0x7e, 0xf4, 0x53, 0x34, 0xa7, 0x02, 0x31, 0x20, 0xfa, 0x61, 0xe0, 0xb6, 0x79, 0x20, 0xd5, 0xe3, 0xea, 0x2b, 0xb7, 0x02, 0x20, 0x44, 0xfc, 0x82, 0x6b, 0x61, 0x65, 0x6f, 0x52, 0xa9, 0xf9, 0xc7, 0xcd, 0x4d, 0xf8, 0x1d, 0x59, 0xc9, 0x7b, 0xc4, 0x38, 0xc6, 0xf9, 0x5a, 0xdf, 0xa7, 0x4b, 0x74, 0x95, 0x0c, 0xfc, 0x9d, 0xcc, 0x01, 0x48, 0x30, 0x45, 0x02, 0x21, 0x00, 0xb4, 0xd5, 0xdf, 0xc7, 0x68, 0xca, 0xf8, 0xa4, 0x56, 0xc2, 0x90, 0xef, 0x3c, 0x9f, 0x17, 0x06, 0x8e, 0x0b, 0xcb, 0x64, 0xe6, 0xac, 0x80, 0x78, 0x8d, 0xe7, 0x59, 0x39, 0x3c, 0x8c, 0x08, 0xfb, 0x02, 0x20, 0x3c, 0x45, 0x41, 0x58, 0x0c, 0x8c, 0x8c, 0xc6, 0x47, 0x1e, 0x36, 0x8b, 0x46, 0x5e, 0x9d, 0x28, 0xa8, 0x53, 0x96, 0xbc, 0x82, 0xad, 0xdd, 0x19, 0x41, 0x37, 0x9b, 0xb1, 0x0c, 0x70, 0xbc, 0xf4, 0x01, 0x4c, 0x69, 0x52, 0x21, 0x02, 0xa1, 0x42, 0x9f, 0x9f, 0x78, 0x11, 0x5c, 0xce, 0xba, 0xf9, 0xba, 0x10, 0x9c, 0xba, 0x1e, 0x1e, 0xa9, 0xd6, 0x16, 0xd5, 0xa1, 0x74, 0x77, 0x76, 0x93, 0x50, 0xa9, 0xc9, 0x33, 0x8b, 0x26, 0x26, 0x21, 0x02, 0x55, 0x94, 0xb9, 0x55, 0x54, 0x3d, 0x02, 0xae, 0x5f, 0x38, 0xe5, 0x24, 0x1a, 0xab, 0xfc, 0x09, 0x12, 0xe7, 0xd1, 0x21, 0xd1, 0x57, 0xe5, 0x17, 0x91, 0x0f, 0x50, 0xd4, 0xef, 0x01, 0x7a, 0x38, 0x21, 0x02, 0xf6, 0xfc, 0x7c, 0xed, 0x92, 0x21, 0x0b, 0x70, 0x5c, 0x7d, 0x20, 0x79, 0x5a, 0x08, 0xa1, 0xda, 0xdc, 0x38, 0xbf, 0x82, 0x14, 0xdc, 0xdb, 0x79, 0x50, 0xc4, 0x60, 0xea, 0xcd, 0x76, 0xd4, 0x11, 0x53, 0xae, 0xff, 0xff, 0xff, 0xff, 0x02, 0xd0, 0x07, 0x00, 0x00, 0x00, 0x00, 0x00, 0x00, 0x19, 0x76, 0xa9, 0x14, 0x5a, 0x92, 0x7d, 0xda, 0xdc, 0x0e, 0xf3, 0xae, 0x45, 0x01, 0xd0, 0xd9, 0x87, 0x2b, 0x57, 0xc9, 0x58, 0x4b, 0x9d, 0x88, 0x88, 0xac, 0xe8, 0x03, 0x00, 0x00, 0x00, 0x00, 0x00, 0x00, 0x19, 0x76, 0xa9, 0x14, 0x5a, 0x92, 0x7d, 0xda, 0xdc, 0x0e, 0xf3, 0xae, 0x45, 0x01, 0xd0, 0xd9, 0x87, 0x2b, 0x57, 0xc9, 0x58, 0x4b, 0x9d, 0x88, 0x88, 0xac, 0x00, 0x00, 0x00, 0x00]
    [(4000, [0xa9, 0x14, 0x21, 0x0a, 0x46, 0x1c, 0xed, 0x66, 0xd7, 0x54, 0x0a, 0xd2, 0xf4, 0x64, 0x9b, 0x49, 0xdb, 0xed, 0x7c, 0x9f, 0xcc, 0x28, 0x87], some [0x52, 0x21, 0x02, 0xa1, 0x42, 0x9f, 0x9f, 0x78, 0x11, 0x5c, 0xce, 0xba, 0xf9, 0xba, 0x10, 0x9c, 0xba, 0x1e, 0x1e, 0xa9, 0xd6, 0x16, 0xd5, 0xa1, 0x74, 0x77, 0x76, 0x93, 0x50, 0xa9, 0xc9, 0x33, 0x8b, 0x26, 0x26, 0x21, 0x02, 0x55, 0x94, 0xb9, 0x55, 0x54, 0x3d, 0x02, 0xae, 0x5f, 0x38, 0xe5, 0x24, 0x1a, 0xab, 0xfc, 0x09, 0x12, 0xe7, 0xd1, 0x21, 0xd1, 0x57, 0xe5, 0x17, 0x91, 0x0f, 0x50, 0xd4, 0xef, 0x01, 0x7a, 0x38, 0x21, 0x02, 0xf6, 0xfc, 0x7c, 0xed, 0x92, 0x21, 0x0b, 0x70, 0x5c, 0x7d, 0x20, 0x79, 0x5a, 0x08, 0xa1, 0xda, 0xdc, 0x38, 0xbf, 0x82, 0x14, 0xdc, 0xdb, 0x79, 0x50, 0xc4, 0x60, 0xea, 0xcd, 0x76, 0xd4, 0x11, 0x53, 0xae])] =
    .ok (.ok (), ascii "5e9cbdc13f93761a99f5d039a7dbc91439bcd54d38242565bbd3241a8ec6c2dd".toList) := by decide +kernel

/-- spending.p2wpkh.to.p2pkh&p2wpkh -/
example : runTx true [0x01, 0x00, 0x00, 0x00, 0x00, 0x01, 0x01, 0x2b, 0x7b, 0x94, 0x4e, 0x88, 0x65, 0x25, 0x29, 0xdc, 0x3a, 0x64, 0x0c, 0x06, 0x09, 0x1d, 0x49, 0x51, 0x2d, 0xc1, 0xf0, 0x84, 0xe6, 0x57, 0x9a, 0xfd, 0x1c, 0x61, 0xae, 0x54, 0x31, 0x7c, 0xc3, 0x00, 0x00, 0x00, 0x00, 0x00, 0xff, 0xff, 0xff, 0xff, 0x02, 0x6a, 0x04, 0x01, 0x00, 0x00, 0x00, 0x00, 0x00, 0x19, 0x76, 0xa9, 0x14, 0x5a, 0x92, 0x7d, 0xda, 0xdc, 0x0e, 0xf3, 0xae, 0x45, 0x01, 0xd0, 0xd9, 0x87, 0x2b, 0x57, 0xc9, 0x58, 0x4b, 0x9d, 0x88, 0x88, 0xac, 0x64, 0x24, 0x09, 0x00, 0x00, 0x00, 0x00, 0x00, 0x16, 0x00, 0x14, 0x8b, 0x7f, 0x22, 0x12, 0xec, 0xc4, 0x38, 0x4a, 0xbc, 0xf1, 0xdf, 0x3f, 0xc5, 0x78, 0x3e, 0x9c, 0x2a, 0x24, 0xd5, 0xa5, 0x02, 0x46, 0x30, 0x43, 0x02, 0x20, 0x2b, 0x83, 0xc7, 0xe9, 0x42, 0x51, 0xd3, 0x30, 0xb0, 0x14, 0xc8, 0x54, 0x74, 0xdb, 0x5f, 0xcf, 0x4a, 0x06, 0x20, 0x4f, 0x82, 0x59, 0xde, 0x36, 0x31, 0xe7, 0x2f, 0x79, 0xbf, 0xa3, 0x5f, 0x07, 0x02, 0x1f, 0x62, 0x2e, 0x5b, 0x62, 0x0b, 0xd4, 0x00, 0xe6, 0x44, 0xe7, 0xa0, 0xda, 0xde, 0xed, 0xac, 0xcc, 0x9d, 0xc7, 0x5c, 0x30, 0xa1, 0xdc, 0x16, 0x0b, 0x13, 0x79, 0xdf, 0x45, 0xd6, 0xf7, 0xcf, 0x01, 0x21, 0x02, 0xf3, 0x63, 0xc6, 0xfb, 0x1d, 0x71, 0x52, 0x14, 0x94, 0xda, 0x67, 0x90, 0x59, 0xa9, 0x84, 0x79, 0xd5, 0x2f, 0x71, 0x66, 0xb9, 0x41, 0x51, 0x42, 0x48, 0xa2, 0xbf, 0xe9, 0xbb, 0xa7, 0x31, 0x73, 0x00, 0x00, 0x00, 0x00]
    [(666666, [0x00, 0x14, 0x8b, 0x7f, 0x22, 0x12, 0xec, 0xc4, 0x38, 0x4a, 0xbc, 0xf1, 0xdf, 0x3f, 0xc5, 0x78, 0x3e, 0x9c, 0x2a, 0x24, 0xd5, 0xa5], none)] =
    .ok (.ok (), ascii "80cd5fca2589cd97d3da1119214ed339d5284ce068e22f1eb9f32ee99a17d4bf".toList) := by decide +kernel

/-- funding.p2wsh.from.p2pkh -/
example : runTx false [0x01, 0x00, 0x00, 0x00, 0x01, 0xa9, 0x01, 0x23, 0x6e, 0xdc, 0x6c, 0x35, 0x6f, 0xce, 0x75, 0x74, 0x69, 0xec, 0x97, 0x02, 0xad, 0x3e, 0x44, 0x36, 0x59, 0x7a, 0x47, 0xf1, 0x2d, 0x75, 0xe5, 0x6e, 0x5a, 0xc9, 0x55, 0xe9, 0xb2, 0x01, 0x00, 0x00, 0x00, 0x6a, 0x47, 0x30, 0x44, 0x02, 0x20, 0x5a, 0xe7, 0xb2, 0xd4, 0xd2, 0x71, 0x2e, 0x1c, 0xe4, 0xd9, 0xc2, 0x3a, 0xed, 0x49, 0xa1, 0x42, 0x46, 0x1d, 0x8f, 0xbc, 0xc2, 0xdd, 0x41, 0x0b, 0xe8, 0xd8, 0x33, 0xb1, 0xb4, 0xf9, 0x15, 0x39, 0x02, 0x20, 0x38, 0x0d, 0x99, 0x05, 0x01, 0x5b, 0x24, 0x06, 0x12, 0x0c, 0x89, 0x92, 0x74, 0x92, 0x2a, 0x45, 0xc3, 0xc9, 0x9b, 0x23, 0xcb, 0x0b, 0xee, 0x02, 0xd9, 0xc3, 0x59, 0xc3, 0xbf, 0x1c, 0x28, 0xd3, 0x01, 0x21, 0x03, 0xd5, 0x4d, 0x0e, 0xca, 0x57, 0xb6, 0xaf, 0xa2, 0x58, 0x3a, 0x4d, 0xdb, 0xd6, 0x1d, 0x4c, 0x40, 0xe0, 0xfd, 0x9d, 0xb8, 0xbe, 0x04, 0x0e, 0xe1, 0xf2, 0x75, 0xb5, 0xc9, 0x12, 0x9e, 0x1e, 0x55, 0xff, 0xff, 0xff, 0xff, 0x02, 0xa0, 0x0f, 0x00, 0x00, 0x00, 0x00, 0x00, 0x00, 0x22, 0x00, 0x20, 0x18, 0xd2, 0xa0, 0x09, 0xc7, 0x82, 0xcd, 0x67, 0x5f, 0x83, 0x5f, 0x76, 0x4f, 0x3a, 0xdf, 0x8f, 0x55, 0x56, 0x5d, 0x1c, 0x7f, 0xe2, 0x8c, 0x27, 0x5a, 0xe9, 0xef, 0xfa, 0x36, 0xc5, 0x9f, 0x42, 0x71, 0xf7, 0x66, 0x00, 0x00, 0x00, 0x00, 0x00, 0x19, 0x76, 0xa9, 0x14, 0x5a, 0x92, 0x7d, 0xda, 0xdc, 0x0e, 0xf3, 0xae, 0x45, 0x01, 0xd0, 0xd9, 0x87, 0x2b, 0x57, 0xc9, 0x58, 0x4b, 0x9d, 0x88, 0x88, 0xac, 0x00, 0x00, 0x00, 0x00]
    [(6753017, [0x76, 0xa9, 0x14, 0x5a, 0x92, 0x7d, 0xda, 0xdc, 0x0e, 0xf3, 0xae, 0x45, 0x01, 0xd0, 0xd9, 0x87, 0x2b, 0x57, 0xc9, 0x58, 0x4b, 0x9d, 0x88, 0x88, 0xac], none)] =
    .ok (.ok (), ascii "02f96826dbd8bfec2e88603d110dfef1872809debfd84c12188ab94097da3998".toList) := by decide +kernel

/-- spending.p2wsh -/
example : runTx true [0x01, 0x00, 0x00, 0x00, 0x00, 0x01, 0x01, 0x98, 0x39, 0xda, 0x97, 0x40, 0xb9, 0x8a, 0x18, 0x12, 0x4c, 0xd8, 0xbf, 0xde, 0x09, 0x28, 0x87, 0xf1, 0xfe, 0x0d, 0x11, 0x3d, 0x60, 0x88, 0x2e, 0xec, 0xbf, 0xd8, 0xdb, 0x26, 0x68, 0xf9, 0x02, 0x00, 0x00, 0x00, 0x00, 0x00, 0xff, 0xff, 0xff, 0xff, 0x02, 0xe8, 0x03, 0x00, 0x00, 0x00, 0x00, 0x00, 0x00, 0x19, 0x76, 0xa9, 0x14, 0x5a, 0x92, 0x7d, 0xda, 0xdc, 0x0e, 0xf3, 0xae, 0x45, 0x01, 0xd0, 0xd9, 0x87, 0x2b, 0x57, 0xc9, 0x58, 0x4b, 0x9d, 0x88, 0x88, 0xac, 0xd0, 0x07, 0x00, 0x00, 0x00, 0x00, 0x00, 0x00, 0x19, 0x76, 0xa9, 0x14, 0x5a, 0x92, 0x7d, 0xda, 0xdc, 0x0e, 0xf3, 0xae, 0x45, 0x01, 0xd0, 0xd9, 0x87, 0x2b, 0x57, 0xc9, 0x58, 0x4b, 0x9d, 0x88, 0x88, 0xac, 0x04, 0x00, 0x48, 0x30, 0x45, 0x02, 0x21, 0x00, 0xc0, 0x31, 0x30, 0xe0, 0xfe, 0x9b, 0xbb, 0x30, 0x1f, 0x30, 0x98, 0xaa, 0x48, 0xaa, 0x00, 0x6f, 0x16, 0xe3, 0x0d, 0x41, 0xc3, 0xa3, 0x1e, 0x7c, 0x87, 0xa8, 0xc1, 0x3a, 0xee, 0x37, 0x20, 0x05, 0x02, 0x20, 0x43, 0x32, 0xbb, 0x84, 0x88, 0xb5, 0x7b, 0x08, 0x7c, 0x9a, 0x9d, 0xd7, 0x32, 0xb1, 0xf8, 0x73, 0xa4, 0xbe, 0x1b, 0x83, 0x66, 0x26, 0x25, 0xe0, 0x61, 0x84, 0x20, 0xcd, 0xf0, 0x39, 0x1f, 0x74, 0x01, 0x48, 0x30, 0x45, 0x02, 0x21, 0x00, 0xe2, 0xc8, 0x57, 0x48, 0x47, 0xe8, 0xfb, 0x98, 0xdc, 0xf3, 0x83, 0x5c, 0xee, 0xd4, 0x1e, 0x4a, 0xba, 0xed, 0x75, 0xf5, 0x9d, 0x37, 0x1e, 0x0c, 0x0c, 0x93, 0x84, 0x65, 0xbe, 0x01, 0x66, 0x19, 0x02, 0x20, 0x27, 0x86, 0xd7, 0xb1, 0xc1, 0xcb, 0x89, 0xa9, 0xee, 0x23, 0x1d, 0xe1, 0x42, 0xb7, 0xb2, 0x2e, 0x1b, 0x9d, 0xeb, 0xea, 0xfa, 0xf0, 0xf6, 0x4b, 0x9b, 0x1c, 0xf4, 0x41, 0x02, 0xfc, 0xf8, 0xae, 0x01, 0x69, 0x52, 0x21, 0x02, 0xa1, 0x42, 0x9f, 0x9f, 0x78, 0x11, 0x5c, 0xce, 0xba, 0xf9, 0xba, 0x10, 0x9c, 0xba, 0x1e, 0x1e, 0xa9, 0xd6, 0x16, 0xd5, 0xa1, 0x74, 0x77, 0x76, 0x93, 0x50, 0xa9, 0xc9, 0x33, 0x8b, 0x26, 0x26, 0x21, 0x02, 0x55, 0x94, 0xb9, 0x55, 0x54, 0x3d, 0x02, 0xae, 0x5f, 0x38, 0xe5, 0x24, 0x1a, 0xab, 0xfc, 0x09, 0x12, 0xe7, 0xd1, 0x21, 0xd1, 0x57, 0xe5, 0x17, 0x91, 0x0f, 0x50, 0xd4, 0xef, 0x01, 0x7a, 0x38, 0x21, 0x02, 0xf6, 0xfc, 0x7c, 0xed, 0x92, 0x21, 0x0b, 0x70, 0x5c, 0x7d, 0x20, 0x79, 0x5a, 0x08, 0xa1, 0xda, 0xdc, 0x38, 0xbf, 0x82, 0x14, 0xdc, 0xdb, 0x79, 0x50, 0xc4, 0x60, 0xea, 0xcd, 0x76, 0xd4, 0x11, 0x53, 0xae, 0x00, 0x00, 0x00, 0x00]
    [(4000, [0x00, 0x20, 0x18, 0xd2, 0xa0, 0x09, 0xc7, 0x82, 0xcd, 0x67, 0x5f, 0x83, 0x5f, 0x76, 0x4f, 0x3a, 0xdf, 0x8f, 0x55, 0x56, 0x5d, 0x1c, 0x7f, 0xe2, 0x8c, 0x27, 0x5a, 0xe9, 0xef, 0xfa, 0x36, 0xc5, 0x9f, 0x42], some [0x52, 0x21, 0x02, 0xa1, 0x42, 0x9f, 0x9f, 0x78, 0x11, 0x5c, 0xce, 0xba, 0xf9, 0xba, 0x10, 0x9c, 0xba, 0x1e, 0x1e, 0xa9, 0xd6, 0x16, 0xd5, 0xa1, 0x74, 0x77, 0x76, 0x93, 0x50, 0xa9, 0xc9, 0x33, 0x8b, 0x26, 0x26, 0x21, 0x02, 0x55, 0x94, 0xb9, 0x55, 0x54, 0x3d, 0x02, 0xae, 0x5f, 0x38, 0xe5, 0x24, 0x1a, 0xab, 0xfc, 0x09, 0x12, 0xe7, 0xd1, 0x21, 0xd1, 0x57, 0xe5, 0x17, 0x91, 0x0f, 0x50, 0xd4, 0xef, 0x01, 0x7a, 0x38, 0x21, 0x02, 0xf6, 0xfc, 0x7c, 0xed, 0x92, 0x21, 0x0b, 0x70, 0x5c, 0x7d, 0x20, 0x79, 0x5a, 0x08, 0xa1, 0xda, 0xdc, 0x38, 0xbf, 0x82, 0x14, 0xdc, 0xdb, 0x79, 0x50, 0xc4, 0x60, 0xea, 0xcd, 0x76, 0xd4, 0x11, 0x53, 0xae])] =
    .ok (.ok (), ascii "70eaf6275e59e780b933d88ea87b0d1f3135ea2ecb6add971f975155ec80d918".toList) := by decide +kernel

end Toku.Check
