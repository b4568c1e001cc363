import Verif.Model.Sha
import Verif.Model.Ecdsa
import Verif.Model.Schnorr
import Verif.Model.HDKey
import Verif.Model.Bip39
import Verif.Model.Words
/-
The model run on published test vectors and on those of the tests in /repo, with SHA-256 and SHA-512 as in
Model/Sha.lean. These are checks that the model computes what the code computes, not properties.
-/
namespace Toku.Check

attribute [local instance] Sha.realHashes

/-- FIPS 180-4: "abc" -/
example : Sha.S256.hash [0x61, 0x62, 0x63] = [0xba, 0x78, 0x16, 0xbf, 0x8f, 0x01, 0xcf, 0xea, 0x41, 0x41, 0x40, 0xde, 0x5d, 0xae, 0x22, 0x23, 0xb0, 0x03, 0x61, 0xa3, 0x96, 0x17, 0x7a, 0x9c, 0xb4, 0x10, 0xff, 0x61, 0xf2, 0x00, 0x15, 0xad] := by
  decide +kernel

/-- FIPS 180-4: "abc" -/
example : Sha.S512.hash [0x61, 0x62, 0x63] = [0xdd, 0xaf, 0x35, 0xa1, 0x93, 0x61, 0x7a, 0xba, 0xcc, 0x41, 0x73, 0x49, 0xae, 0x20, 0x41, 0x31, 0x12, 0xe6, 0xfa, 0x4e, 0x89, 0xa9, 0x7e, 0xa2, 0x0a, 0x9e, 0xee, 0xe6, 0x4b, 0x55, 0xd3, 0x9a, 0x21, 0x92, 0x99, 0x2a, 0x27, 0x4f, 0xc1, 0xa8, 0x36, 0xba, 0x3c, 0x23, 0xa3, 0xfe, 0xeb, 0xbd, 0x45, 0x4d, 0x44, 0x23, 0x64, 0x3c, 0xe8, 0x0e, 0x2a, 0x9a, 0xc9, 0x4f, 0xa5, 0x4c, 0xa4, 0x9f] := by
  decide +kernel

/-- xcrypto/ecdsa/rfc6979_test.go:14-27 (RFC 6979, appendix A.1: a group order of 163 bits) -/
example : Ecdsa.nonce 0x4000000000000000000020108A2E0CC0D99F8A5EF 4 0x09A4D6792295A7F730FC3F2B49CBC0F62E862272F
    [0xaf, 0x2b, 0xdb, 0xe1, 0xaa, 0x9b, 0x6e, 0xc1, 0xe2, 0xad, 0xe1, 0xd6, 0x94, 0xf4, 0x1f, 0xc7, 0x1a, 0x83, 0x1d, 0x02, 0x68, 0xe9, 0x89, 0x15, 0x62, 0x11, 0x3d, 0x8a, 0x62, 0xad, 0xd1, 0xbf] =
    some 0x23AF4074C90A02B3FE61D286D5C87F425E6BDD81B := by decide +kernel

/-- A nonce on secp256k1 for key 1 and the SHA-256 of "Satoshi Nakamoto". -/
example : Ecdsa.sign 1 1 (Sha.S256.hash [0x53, 0x61, 0x74, 0x6f, 0x73, 0x68, 0x69, 0x20, 0x4e, 0x61, 0x6b, 0x61, 0x6d, 0x6f, 0x74, 0x6f]) =
    .ok (0x934b1ea10a4b3c1757e2b0c017d0b6143ce3c9a7e6a4a49860d7a6ab210ee3d8,
      0x2442ce9d2b916064108014783e923ec36b49743e2ffa1c4496f01a512aafd9e5) := by decide +kernel

/-- xcrypto/schnorr/schnorr_test.go:40-46: signing. -/
example : (Keys.prvFromBytes [0xb7, 0xe1, 0x51, 0x62, 0x8a, 0xed, 0x2a, 0x6a, 0xbf, 0x71, 0x58, 0x80, 0x9c, 0xf4, 0xf3, 0xc7, 0x62, 0xe7, 0x16, 0x0f, 0x38, 0xb4, 0xda, 0x56, 0xa7, 0x84, 0xd9, 0x04, 0x51, 0x90, 0xcf, 0xef] >>= fun k => Schnorr.schnorrSign k [0x24, 0x3f, 0x6a, 0x88, 0x85, 0xa3, 0x08, 0xd3, 0x13, 0x19, 0x8a, 0x2e, 0x03, 0x70, 0x73, 0x44, 0xa4, 0x09, 0x38, 0x22, 0x29, 0x9f, 0x31, 0xd0, 0x08, 0x2e, 0xfa, 0x98, 0xec, 0x4e, 0x6c, 0x89]) =
    .ok [0x2a, 0x29, 0x8d, 0xac, 0xae, 0x57, 0x39, 0x5a, 0x15, 0xd0, 0x79, 0x5d, 0xdb, 0xfd, 0x1d, 0xcb, 0x56, 0x4d, 0xa8, 0x2b, 0x0f, 0x26, 0x9b, 0xc7, 0x0a, 0x74, 0xf8, 0x22, 0x04, 0x29, 0xba, 0x1d, 0x1e, 0x51, 0xa2, 0x2c, 0xce, 0xc3, 0x55, 0x99, 0xb8, 0xf2, 0x66, 0x91, 0x22, 0x81, 0xf8, 0x36, 0x5f, 0xfc, 0x2d, 0x03, 0x5a, 0x23, 0x04, 0x34, 0xa1, 0xa6, 0x4d, 0xc5, 0x9f, 0x70, 0x13, 0xfd] := by decide +kernel

/-- xcrypto/schnorr/schnorr_test.go:40-46: verification with the serialised key. -/
example : (Keys.pubFromBytes [0x02, 0xdf, 0xf1, 0xd7, 0x7f, 0x2a, 0x67, 0x1c, 0x5f, 0x36, 0x18, 0x37, 0x26, 0xdb, 0x23, 0x41, 0xbe, 0x58, 0xfe, 0xae, 0x1d, 0xa2, 0xde, 0xce, 0xd8, 0x43, 0x24, 0x0f, 0x7b, 0x50, 0x2b, 0xa6, 0x59] >>= fun k => Schnorr.schnorrVerify k [0x24, 0x3f, 0x6a, 0x88, 0x85, 0xa3, 0x08, 0xd3, 0x13, 0x19, 0x8a, 0x2e, 0x03, 0x70, 0x73, 0x44, 0xa4, 0x09, 0x38, 0x22, 0x29, 0x9f, 0x31, 0xd0, 0x08, 0x2e, 0xfa, 0x98, 0xec, 0x4e, 0x6c, 0x89]
    [0x2a, 0x29, 0x8d, 0xac, 0xae, 0x57, 0x39, 0x5a, 0x15, 0xd0, 0x79, 0x5d, 0xdb, 0xfd, 0x1d, 0xcb, 0x56, 0x4d, 0xa8, 0x2b, 0x0f, 0x26, 0x9b, 0xc7, 0x0a, 0x74, 0xf8, 0x22, 0x04, 0x29, 0xba, 0x1d, 0x1e, 0x51, 0xa2, 0x2c, 0xce, 0xc3, 0x55, 0x99, 0xb8, 0xf2, 0x66, 0x91, 0x22, 0x81, 0xf8, 0x36, 0x5f, 0xfc, 0x2d, 0x03, 0x5a, 0x23, 0x04, 0x34, 0xa1, 0xa6, 0x4d, 0xc5, 0x9f, 0x70, 0x13, 0xfd]) = .ok () := by decide +kernel

/-- xcrypto/schnorr/schnorr_test.go:84-92: R has the wrong residuosity. -/
example : (Keys.pubFromBytes [0x02, 0xdf, 0xf1, 0xd7, 0x7f, 0x2a, 0x67, 0x1c, 0x5f, 0x36, 0x18, 0x37, 0x26, 0xdb, 0x23, 0x41, 0xbe, 0x58, 0xfe, 0xae, 0x1d, 0xa2, 0xde, 0xce, 0xd8, 0x43, 0x24, 0x0f, 0x7b, 0x50, 0x2b, 0xa6, 0x59] >>= fun k => Schnorr.schnorrVerify k [0x24, 0x3f, 0x6a, 0x88, 0x85, 0xa3, 0x08, 0xd3, 0x13, 0x19, 0x8a, 0x2e, 0x03, 0x70, 0x73, 0x44, 0xa4, 0x09, 0x38, 0x22, 0x29, 0x9f, 0x31, 0xd0, 0x08, 0x2e, 0xfa, 0x98, 0xec, 0x4e, 0x6c, 0x89]
    [0x2a, 0x29, 0x8d, 0xac, 0xae, 0x57, 0x39, 0x5a, 0x15, 0xd0, 0x79, 0x5d, 0xdb, 0xfd, 0x1d, 0xcb, 0x56, 0x4d, 0xa8, 0x2b, 0x0f, 0x26, 0x9b, 0xc7, 0x0a, 0x74, 0xf8, 0x22, 0x04, 0x29, 0xba, 0x1d, 0xfa, 0x16, 0xae, 0xe0, 0x66, 0x09, 0x28, 0x0a, 0x19, 0xb6, 0x7a, 0x24, 0xe1, 0x97, 0x7e, 0x46, 0x97, 0x71, 0x2b, 0x5f, 0xd2, 0x94, 0x39, 0x14, 0xec, 0xd5, 0xf7, 0x30, 0x90, 0x1b, 0x4a, 0xb7]) = .err Schnorr.errVerify := by decide +kernel

/-- xcore/bip32/hdkey_test.go:67-72 (BIP 32, test vector 1, `m/0'/1/2'/2/1000000000`): the private key. -/
example : (HDKey.new [0x00, 0x01, 0x02, 0x03, 0x04, 0x05, 0x06, 0x07, 0x08, 0x09, 0x0a, 0x0b, 0x0c, 0x0d, 0x0e, 0x0f] >>= fun k => HDKey.deriveByPath k [0x6d, 0x2f, 0x30, 0x27, 0x2f, 0x31, 0x2f, 0x32, 0x27, 0x2f, 0x32, 0x2f, 0x31, 0x30, 0x30, 0x30, 0x30, 0x30, 0x30, 0x30, 0x30, 0x30] >>= HDKey.toString [0x04, 0x88, 0xad, 0xe4] [0x04, 0x88, 0xb2, 0x1e]) =
    .ok [0x78, 0x70, 0x72, 0x76, 0x41, 0x34, 0x31, 0x7a, 0x37, 0x7a, 0x6f, 0x67, 0x56, 0x56, 0x77, 0x78, 0x56, 0x53, 0x67, 0x64, 0x4b, 0x55, 0x48, 0x44, 0x79, 0x31, 0x53, 0x4b, 0x6d, 0x64, 0x62, 0x35, 0x33, 0x33, 0x50, 0x6a, 0x44, 0x7a, 0x37, 0x4a, 0x36, 0x4e, 0x36, 0x6d, 0x56, 0x36, 0x75, 0x53, 0x33, 0x7a, 0x65, 0x31, 0x61, 0x69, 0x38, 0x46, 0x48, 0x61, 0x38, 0x6b, 0x6d, 0x48, 0x53, 0x63, 0x47, 0x70, 0x57, 0x6d, 0x6a, 0x34, 0x57, 0x67, 0x67, 0x4c, 0x79, 0x51, 0x6a, 0x67, 0x50, 0x69, 0x65, 0x31, 0x72, 0x46, 0x53, 0x72, 0x75, 0x6f, 0x55, 0x69, 0x68, 0x55, 0x5a, 0x52, 0x45, 0x50, 0x53, 0x4c, 0x33, 0x39, 0x55, 0x4e, 0x64, 0x45, 0x33, 0x42, 0x42, 0x44, 0x75, 0x37, 0x36] := by decide +kernel

/-- xcore/bip32/hdkey_test.go:67-72: the public key. -/
example : (HDKey.new [0x00, 0x01, 0x02, 0x03, 0x04, 0x05, 0x06, 0x07, 0x08, 0x09, 0x0a, 0x0b, 0x0c, 0x0d, 0x0e, 0x0f] >>= fun k => HDKey.deriveByPath k [0x6d, 0x2f, 0x30, 0x27, 0x2f, 0x31, 0x2f, 0x32, 0x27, 0x2f, 0x32, 0x2f, 0x31, 0x30, 0x30, 0x30, 0x30, 0x30, 0x30, 0x30, 0x30, 0x30] >>= fun k => HDKey.toString [0x04, 0x88, 0xad, 0xe4] [0x04, 0x88, 0xb2, 0x1e] (HDKey.hdPublicKey k)) =
    .ok [0x78, 0x70, 0x75, 0x62, 0x36, 0x48, 0x31, 0x4c, 0x58, 0x57, 0x4c, 0x61, 0x4b, 0x73, 0x57, 0x46, 0x68, 0x76, 0x6d, 0x36, 0x52, 0x56, 0x70, 0x45, 0x4c, 0x39, 0x50, 0x34, 0x4b, 0x66, 0x52, 0x5a, 0x53, 0x57, 0x37, 0x61, 0x62, 0x44, 0x32, 0x74, 0x74, 0x6b, 0x57, 0x50, 0x33, 0x53, 0x53, 0x51, 0x76, 0x6e, 0x79, 0x41, 0x38, 0x46, 0x53, 0x56, 0x71, 0x4e, 0x54, 0x45, 0x63, 0x59, 0x46, 0x67, 0x4a, 0x53, 0x32, 0x55, 0x61, 0x46, 0x63, 0x78, 0x75, 0x70, 0x48, 0x69, 0x59, 0x6b, 0x72, 0x6f, 0x34, 0x39, 0x53, 0x38, 0x79, 0x47, 0x61, 0x73, 0x54, 0x76, 0x58, 0x45, 0x59, 0x42, 0x56, 0x50, 0x61, 0x6d, 0x68, 0x47, 0x57, 0x36, 0x63, 0x46, 0x4a, 0x6f, 0x64, 0x72, 0x54, 0x48, 0x79] := by decide +kernel

/-- The last step of that path taken from the text of the public key. -/
example : (HDKey.fromString [0x78, 0x70, 0x75, 0x62, 0x36, 0x46, 0x48, 0x61, 0x33, 0x70, 0x6a, 0x4c, 0x43, 0x6b, 0x38, 0x34, 0x42, 0x61, 0x79, 0x65, 0x4a, 0x78, 0x46, 0x57, 0x32, 0x53, 0x50, 0x34, 0x58, 0x52, 0x72, 0x46, 0x64, 0x31, 0x4a, 0x59, 0x6e, 0x78, 0x65, 0x4c, 0x65, 0x55, 0x38, 0x45, 0x71, 0x4e, 0x33, 0x76, 0x44, 0x66, 0x5a, 0x6d, 0x62, 0x71, 0x42, 0x71, 0x61, 0x47, 0x4a, 0x41, 0x79, 0x69, 0x4c, 0x6a, 0x54, 0x41, 0x77, 0x6d, 0x36, 0x5a, 0x4c, 0x52, 0x51, 0x55, 0x4d, 0x76, 0x31, 0x5a, 0x41, 0x43, 0x54, 0x6a, 0x33, 0x37, 0x73, 0x52, 0x36, 0x32, 0x63, 0x66, 0x4e, 0x37, 0x66, 0x65, 0x35, 0x4a, 0x6e, 0x4a, 0x37, 0x64, 0x68, 0x38, 0x7a, 0x4c, 0x34, 0x66, 0x69, 0x79, 0x4c, 0x48, 0x56] >>= fun k => HDKey.derive k 1000000000 >>= HDKey.toString [0x04, 0x88, 0xad, 0xe4] [0x04, 0x88, 0xb2, 0x1e]) =
    .ok [0x78, 0x70, 0x75, 0x62, 0x36, 0x48, 0x31, 0x4c, 0x58, 0x57, 0x4c, 0x61, 0x4b, 0x73, 0x57, 0x46, 0x68, 0x76, 0x6d, 0x36, 0x52, 0x56, 0x70, 0x45, 0x4c, 0x39, 0x50, 0x34, 0x4b, 0x66, 0x52, 0x5a, 0x53, 0x57, 0x37, 0x61, 0x62, 0x44, 0x32, 0x74, 0x74, 0x6b, 0x57, 0x50, 0x33, 0x53, 0x53, 0x51, 0x76, 0x6e, 0x79, 0x41, 0x38, 0x46, 0x53, 0x56, 0x71, 0x4e, 0x54, 0x45, 0x63, 0x59, 0x46, 0x67, 0x4a, 0x53, 0x32, 0x55, 0x61, 0x46, 0x63, 0x78, 0x75, 0x70, 0x48, 0x69, 0x59, 0x6b, 0x72, 0x6f, 0x34, 0x39, 0x53, 0x38, 0x79, 0x47, 0x61, 0x73, 0x54, 0x76, 0x58, 0x45, 0x59, 0x42, 0x56, 0x50, 0x61, 0x6d, 0x68, 0x47, 0x57, 0x36, 0x63, 0x46, 0x4a, 0x6f, 0x64, 0x72, 0x54, 0x48, 0x79] := by decide +kernel

/-- A vector of xcore/bip39/bip39_test.go: the mnemonic of 192 bits. -/
example : Bip39.newMnemonic Words.english [0x80, 0x80, 0x80, 0x80, 0x80, 0x80, 0x80, 0x80, 0x80, 0x80, 0x80, 0x80, 0x80, 0x80, 0x80, 0x80, 0x80, 0x80, 0x80, 0x80, 0x80, 0x80, 0x80, 0x80] =
    .ok [0x6c, 0x65, 0x74, 0x74, 0x65, 0x72, 0x20, 0x61, 0x64, 0x76, 0x69, 0x63, 0x65, 0x20, 0x63, 0x61, 0x67, 0x65, 0x20, 0x61, 0x62, 0x73, 0x75, 0x72, 0x64, 0x20, 0x61, 0x6d, 0x6f, 0x75, 0x6e, 0x74, 0x20, 0x64, 0x6f, 0x63, 0x74, 0x6f, 0x72, 0x20, 0x61, 0x63, 0x6f, 0x75, 0x73, 0x74, 0x69, 0x63, 0x20, 0x61, 0x76, 0x6f, 0x69, 0x64, 0x20, 0x6c, 0x65, 0x74, 0x74, 0x65, 0x72, 0x20, 0x61, 0x64, 0x76, 0x69, 0x63, 0x65, 0x20, 0x63, 0x61, 0x67, 0x65, 0x20, 0x61, 0x62, 0x73, 0x75, 0x72, 0x64, 0x20, 0x61, 0x6d, 0x6f, 0x75, 0x6e, 0x74, 0x20, 0x64, 0x6f, 0x63, 0x74, 0x6f, 0x72, 0x20, 0x61, 0x63, 0x6f, 0x75, 0x73, 0x74, 0x69, 0x63, 0x20, 0x61, 0x76, 0x6f, 0x69, 0x64, 0x20, 0x6c, 0x65, 0x74, 0x74, 0x65, 0x72, 0x20, 0x61, 0x6c, 0x77, 0x61, 0x79, 0x73] := by decide +kernel

/-- And back. -/
example : Bip39.entropyFromMnemonic Words.english [0x6c, 0x65, 0x74, 0x74, 0x65, 0x72, 0x20, 0x61, 0x64, 0x76, 0x69, 0x63, 0x65, 0x20, 0x63, 0x61, 0x67, 0x65, 0x20, 0x61, 0x62, 0x73, 0x75, 0x72, 0x64, 0x20, 0x61, 0x6d, 0x6f, 0x75, 0x6e, 0x74, 0x20, 0x64, 0x6f, 0x63, 0x74, 0x6f, 0x72, 0x20, 0x61, 0x63, 0x6f, 0x75, 0x73, 0x74, 0x69, 0x63, 0x20, 0x61, 0x76, 0x6f, 0x69, 0x64, 0x20, 0x6c, 0x65, 0x74, 0x74, 0x65, 0x72, 0x20, 0x61, 0x64, 0x76, 0x69, 0x63, 0x65, 0x20, 0x63, 0x61, 0x67, 0x65, 0x20, 0x61, 0x62, 0x73, 0x75, 0x72, 0x64, 0x20, 0x61, 0x6d, 0x6f, 0x75, 0x6e, 0x74, 0x20, 0x64, 0x6f, 0x63, 0x74, 0x6f, 0x72, 0x20, 0x61, 0x63, 0x6f, 0x75, 0x73, 0x74, 0x69, 0x63, 0x20, 0x61, 0x76, 0x6f, 0x69, 0x64, 0x20, 0x6c, 0x65, 0x74, 0x74, 0x65, 0x72, 0x20, 0x61, 0x6c, 0x77, 0x61, 0x79, 0x73] =
    .ok [0x80, 0x80, 0x80, 0x80, 0x80, 0x80, 0x80, 0x80, 0x80, 0x80, 0x80, 0x80, 0x80, 0x80, 0x80, 0x80, 0x80, 0x80, 0x80, 0x80, 0x80, 0x80, 0x80, 0x80] := by decide +kernel

/-- A vector of xcore/bip39/bip39_test.go: the mnemonic of 256 bits. -/
example : Bip39.newMnemonic Words.english [0x15, 0xda, 0x87, 0x2c, 0x95, 0xa1, 0x3d, 0xd7, 0x38, 0xfb, 0xf5, 0x0e, 0x42, 0x75, 0x83, 0xad, 0x61, 0xf1, 0x8f, 0xd9, 0x9f, 0x62, 0x8c, 0x41, 0x7a, 0x61, 0xcf, 0x83, 0x43, 0xc9, 0x04, 0x19] =
    .ok [0x62, 0x65, 0x79, 0x6f, 0x6e, 0x64, 0x20, 0x73, 0x74, 0x61, 0x67, 0x65, 0x20, 0x73, 0x6c, 0x65, 0x65, 0x70, 0x20, 0x63, 0x6c, 0x69, 0x70, 0x20, 0x62, 0x65, 0x63, 0x61, 0x75, 0x73, 0x65, 0x20, 0x74, 0x77, 0x69, 0x73, 0x74, 0x20, 0x74, 0x6f, 0x6b, 0x65, 0x6e, 0x20, 0x6c, 0x65, 0x61, 0x66, 0x20, 0x61, 0x74, 0x6f, 0x6d, 0x20, 0x62, 0x65, 0x61, 0x75, 0x74, 0x79, 0x20, 0x67, 0x65, 0x6e, 0x69, 0x75, 0x73, 0x20, 0x66, 0x6f, 0x6f, 0x64, 0x20, 0x62, 0x75, 0x73, 0x69, 0x6e, 0x65, 0x73, 0x73, 0x20, 0x73, 0x69, 0x64, 0x65, 0x20, 0x67, 0x72, 0x69, 0x64, 0x20, 0x75, 0x6e, 0x61, 0x62, 0x6c, 0x65, 0x20, 0x6d, 0x69, 0x64, 0x64, 0x6c, 0x65, 0x20, 0x61, 0x72, 0x6d, 0x65, 0x64, 0x20, 0x6f, 0x62, 0x73, 0x65, 0x72, 0x76, 0x65, 0x20, 0x70, 0x61, 0x69, 0x72, 0x20, 0x63, 0x72, 0x6f, 0x75, 0x63, 0x68, 0x20, 0x74, 0x6f, 0x6e, 0x69, 0x67, 0x68, 0x74, 0x20, 0x61, 0x77, 0x61, 0x79, 0x20, 0x63, 0x6f, 0x63, 0x6f, 0x6e, 0x75, 0x74] := by decide +kernel

/-- And back. -/
example : Bip39.entropyFromMnemonic Words.english [0x62, 0x65, 0x79, 0x6f, 0x6e, 0x64, 0x20, 0x73, 0x74, 0x61, 0x67, 0x65, 0x20, 0x73, 0x6c, 0x65, 0x65, 0x70, 0x20, 0x63, 0x6c, 0x69, 0x70, 0x20, 0x62, 0x65, 0x63, 0x61, 0x75, 0x73, 0x65, 0x20, 0x74, 0x77, 0x69, 0x73, 0x74, 0x20, 0x74, 0x6f, 0x6b, 0x65, 0x6e, 0x20, 0x6c, 0x65, 0x61, 0x66, 0x20, 0x61, 0x74, 0x6f, 0x6d, 0x20, 0x62, 0x65, 0x61, 0x75, 0x74, 0x79, 0x20, 0x67, 0x65, 0x6e, 0x69, 0x75, 0x73, 0x20, 0x66, 0x6f, 0x6f, 0x64, 0x20, 0x62, 0x75, 0x73, 0x69, 0x6e, 0x65, 0x73, 0x73, 0x20, 0x73, 0x69, 0x64, 0x65, 0x20, 0x67, 0x72, 0x69, 0x64, 0x20, 0x75, 0x6e, 0x61, 0x62, 0x6c, 0x65, 0x20, 0x6d, 0x69, 0x64, 0x64, 0x6c, 0x65, 0x20, 0x61, 0x72, 0x6d, 0x65, 0x64, 0x20, 0x6f, 0x62, 0x73, 0x65, 0x72, 0x76, 0x65, 0x20, 0x70, 0x61, 0x69, 0x72, 0x20, 0x63, 0x72, 0x6f, 0x75, 0x63, 0x68, 0x20, 0x74, 0x6f, 0x6e, 0x69, 0x67, 0x68, 0x74, 0x20, 0x61, 0x77, 0x61, 0x79, 0x20, 0x63, 0x6f, 0x63, 0x6f, 0x6e, 0x75, 0x74] =
    .ok [0x15, 0xda, 0x87, 0x2c, 0x95, 0xa1, 0x3d, 0xd7, 0x38, 0xfb, 0xf5, 0x0e, 0x42, 0x75, 0x83, 0xad, 0x61, 0xf1, 0x8f, 0xd9, 0x9f, 0x62, 0x8c, 0x41, 0x7a, 0x61, 0xcf, 0x83, 0x43, 0xc9, 0x04, 0x19] := by decide +kernel

/-- PBKDF2 with HMAC-SHA512, "password", "salt", two rounds, 64 bytes. -/
example : Pbkdf2.key (hmac512 [0x70, 0x61, 0x73, 0x73, 0x77, 0x6f, 0x72, 0x64]) 64 [0x73, 0x61, 0x6c, 0x74] 2 64 =
    .ok [0xe1, 0xd9, 0xc1, 0x6a, 0xa6, 0x81, 0x70, 0x8a, 0x45, 0xf5, 0xc7, 0xc4, 0xe2, 0x15, 0xce, 0xb6, 0x6e, 0x01, 0x1a, 0x2e, 0x9f, 0x00, 0x40, 0x71, 0x3f, 0x18, 0xae, 0xfd, 0xb8, 0x66, 0xd5, 0x3c, 0xf7, 0x6c, 0xab, 0x28, 0x68, 0xa3, 0x9b, 0x9f, 0x78, 0x40, 0xed, 0xce, 0x4f, 0xef, 0x5a, 0x82, 0xbe, 0x67, 0x33, 0x5c, 0x77, 0xa6, 0x06, 0x8e, 0x04, 0x11, 0x27, 0x54, 0xf2, 0x7c, 0xcf, 0x4e] := by decide +kernel

end Toku.Check
