import Verif.Model.Sha
import Verif.Model.Address
import Verif.Model.Assemble
/-
Tables of the tests of /repo about texts, scripts and numbers, run through the model. These are checks that the model computes what the
code computes, not properties.
-/
namespace Toku.Check.Texts

attribute [local instance] Sha.realHashes

/-- The bytes of a text. -/
def t (s : String) : Bytes := ascii s.toList
/-- The bytes of a hexadecimal text. -/
def x (s : String) : Bytes := match Id.hexDecode (t s) with | .ok b => b | _ => []

/-- xbase/base58_test.go:14-28 -/
example : ∀ p ∈ ([
    ("", ""),
    (" ", "Z"),
    ("-", "n"),
    ("0", "q"),
    ("1", "r"),
    ("-1", "4SU"),
    ("11", "4k8"),
    ("abc", "ZiCa"),
    ("1234598760", "3mJr7AoUXx2Wqd"),
    ("abcdefghijklmnopqrstuvwxyz", "3yxU3u1igY8WkgtjK92fbJQCd4BZiiT1v25f"),
    ("00000000000000000000000000000000000000000000000000000000000000", "3sN2THZeE9Eh9eYrwkvZqNstbHGvrxSAM7gXUXvyFQP8XvQLUqNCS27icwUeDT7ckHm4FUHM2mTVh1vbLmk7y")] : List (String × String)),
    Base58.encode (t p.1) = t p.2 := by decide +kernel

/-- xbase/base58_test.go:30-44 -/
example : ∀ p ∈ ([
    "0",
    "O",
    "I",
    "l",
    "3mJr0",
    "O3yxU",
    "3sNI",
    "4kl8",
    "0OIl",
    "!@#$%^&*()-_=+~`"] : List (String)),
    Base58.decode (t p) = [] := by decide +kernel

/-- xbase/base58_test.go:46-62 -/
example : ∀ p ∈ ([
    ("61", "2g"),
    ("626262", "a3gV"),
    ("636363", "aPEr"),
    ("73696d706c792061206c6f6e6720737472696e67", "2cFupjhnEsSn59qHXstmK2ffpLv2"),
    ("00eb15231dfceb60925886b67d065299925915aeb172c06647", "1NS17iag9jJgTHD1VXjvLCEnZuQ3rJDE9L"),
    ("516b6fcd0f", "ABnLTmg"),
    ("bf4f89001e670274dd", "3SEo3LWLoPntC"),
    ("572e4794", "3EFU7m"),
    ("ecac89cad93923c02321", "EJDM8drfXA6uyA"),
    ("10c8511e", "Rt5zm"),
    ("00000000000000000000", "1111111111")] : List (String × String)),
    Base58.decode (t p.2) = x p.1 := by decide +kernel

/-- xbase/base58_test.go:98-133, version 20 -/
example : ∀ p ∈ ([
    ("", "3MNQE1X"),
    ("abc", "4QiVtDjUdeq")] : List (String × String)),
    Base58.checkEncode (t p.1) 20 = t p.2 ∧ Base58.checkDecode (t p.2) = .ok (t p.1, 20) := by decide +kernel

/-- xbase/base58_test.go:135-150 -/
example : Base58.checkDecode (t "3MNQE1Y") = .err .base58Checksum ∧ Base58.checkDecode [] = .err .base58Format := by decide +kernel

/-- xbase/bech32_test.go:17-21: accepted, and encoded again -/
example : ∀ p ∈ ([
    "A12UEL5L",
    "an83characterlonghumanreadablepartthatcontainsthenumber1andtheexcludedcharactersbio1tt5tgs",
    "abcdef1qpzry9x8gf2tvdw0s3jn54khce6mua7lmqqqxw",
    "11qqqqqqqqqqqqqqqqqqqqqqqqqqqqqqqqqqqqqqqqqqqqqqqqqqqqqqqqqqqqqqqqqqqqqqqqqqqqqqqqqqc8247j",
    "split1checkupstagehandshakeupstreamerranterredcaperred2y9e3w"] : List (String)),
    (Bech32.decode (t p) >>= fun q => Bech32.encode q.1 q.2) = .ok (Bech32.toLower (t p)) := by decide +kernel

/-- xbase/bech32_test.go:22-28: refused -/
example : ∀ p ∈ ([
    "split1checkupstagehandshakeupstreamerranterredcaperred2y9e2w",
    "s lit1checkupstagehandshakeupstreamerranterredcaperredp8hs2p",
    "split1cheo2y9e2w",
    "split1a2y9w",
    "1checkupstagehandshakeupstreamerranterredcaperred2y9e3w",
    "11qqqqqqqqqqqqqqqqqqqqqqqqqqqqqqqqqqqqqqqqqqqqqqsqqqqqqqqqqqqqqqqqqqqqqqqqqqqqqqqqqqqc8247j"] : List (String)),
    (Bech32.decode (t p)).isOk = false := by decide +kernel

/-- xbase/witness_test.go:25-66 -/
example : ∀ p ∈ ([
    ("bc1qw508d6qejxtdg4y5r3zarvary0c5xw7kv8f3t4", "0014751e76e8199196d454941c45d1b3a323f1433bd6"),
    ("tb1qrp33g0q5c5txsp9arysrx4k6zdkfs4nce4xj0gdcccefvpysxf3q0sl5k7", "00201863143c14c5166804bd19203356da136c985678cd4d27a1b8c6329604903262"),
    ("bc1pw508d6qejxtdg4y5r3zarvary0c5xw7kw508d6qejxtdg4y5r3zarvary0c5xw7k7grplx", "5128751e76e8199196d454941c45d1b3a323f1433bd6751e76e8199196d454941c45d1b3a323f1433bd6"),
    ("bc1sw50qa3jx3s", "6002751e"),
    ("bc1zw508d6qejxtdg4y5r3zarvaryvg6kdaj", "5210751e76e8199196d454941c45d1b3a323"),
    ("tb1qqqqqp399et2xygdj5xreqhjjvcmzhxw4aywxecjdzew6hylgvsesrxh6hy", "0020000000c4a5cad46221b2a187905e5266362b99d5e91c6ce24d165dab93e86433")] : List (String × String)),
    (Witness.decode (t p.1) >>= fun q => .ok ((if q.2.1 = 0 then 0 else q.2.1 + 0x50) :: UInt8.ofNat q.2.2.length :: q.2.2)) = .ok (x p.2) ∧
    (Witness.decode (t p.1) >>= fun q => Witness.encode q.1 q.2.1 q.2.2) = .ok (t p.1) := by decide +kernel

/-- xvm/scriptnum_test.go:36-79 -/
example : ∀ p ∈ ([
    (0, ""),
    (1, "01"),
    (-1, "81"),
    (127, "7f"),
    (-127, "ff"),
    (128, "8000"),
    (-128, "8080"),
    (129, "8100"),
    (-129, "8180"),
    (256, "0001"),
    (-256, "0081"),
    (32767, "ff7f"),
    (-32767, "ffff"),
    (32768, "008000"),
    (-32768, "008080"),
    (65535, "ffff00"),
    (-65535, "ffff80"),
    (524288, "000008"),
    (-524288, "000088"),
    (7340032, "000070"),
    (-7340032, "0000f0"),
    (8388608, "00008000"),
    (-8388608, "00008080"),
    (2147483647, "ffffff7f"),
    (-2147483647, "ffffffff"),
    (2147483648, "0000008000"),
    (-2147483648, "0000008080"),
    (2415919104, "0000009000"),
    (-2415919104, "0000009080"),
    (4294967295, "ffffffff00"),
    (-4294967295, "ffffffff80"),
    (4294967296, "0000000001"),
    (-4294967296, "0000000081"),
    (281474976710655, "ffffffffffff00"),
    (-281474976710655, "ffffffffffff80"),
    (72057594037927935, "ffffffffffffff00"),
    (-72057594037927935, "ffffffffffffff80"),
    (9223372036854775807, "ffffffffffffff7f"),
    (-9223372036854775807, "ffffffffffffffff")] : List (Int × String)),
    ScriptNum.bytes p.1 = .ok (x p.2) := by decide +kernel

/-- xvm/scriptnum_test.go:112-147 -/
example : ∀ p ∈ ([
    ("", 0, 4),
    ("01", 1, 4),
    ("81", -1, 4),
    ("7f", 127, 4),
    ("ff", -127, 4),
    ("8000", 128, 4),
    ("8080", -128, 4),
    ("8100", 129, 4),
    ("8180", -129, 4),
    ("0001", 256, 4),
    ("0081", -256, 4),
    ("ff7f", 32767, 4),
    ("ffff", -32767, 4),
    ("008000", 32768, 4),
    ("008080", -32768, 4),
    ("ffff00", 65535, 4),
    ("ffff80", -65535, 4),
    ("000008", 524288, 4),
    ("000088", -524288, 4),
    ("000070", 7340032, 4),
    ("0000f0", -7340032, 4),
    ("00008000", 8388608, 4),
    ("00008080", -8388608, 4),
    ("ffffff7f", 2147483647, 4),
    ("ffffffff", -2147483647, 4),
    ("ffffffff7f", 549755813887, 5),
    ("ffffffffff", -549755813887, 5),
    ("ffffffffffffff7f", 9223372036854775807, 8),
    ("ffffffffffffffff", -9223372036854775807, 8),
    ("ffffffffffffffff7f", -1, 9),
    ("ffffffffffffffffff", 1, 9),
    ("ffffffffffffffffff7f", -1, 10),
    ("ffffffffffffffffffff", 1, 10)] : List (String × Int × Nat)),
    ScriptNum.make (x p.1) p.2.2 = .ok p.2.1 := by decide +kernel

/-- xvm/scriptnum_test.go:149-165: too big -/
example : ∀ p ∈ ([
    ("0000008000", 4),
    ("0000008080", 4),
    ("0000009000", 4),
    ("0000009080", 4),
    ("ffffffff00", 4),
    ("ffffffff80", 4),
    ("0000000001", 4),
    ("0000000081", 4),
    ("ffffffffffff00", 4),
    ("ffffffffffff80", 4),
    ("ffffffffffffff00", 4),
    ("ffffffffffffff80", 4),
    ("ffffffffffffff7f", 4),
    ("ffffffffffffffff", 4)] : List (String × Nat)),
    ScriptNum.make (x p.1) p.2 = .err ScriptNum.tooBig := by decide +kernel

/-- xvm/scriptnum_test.go:109-110, 167-180: not minimal -/
example : ∀ p ∈ ([
    ("80", 4),
    ("00", 4),
    ("0100", 4),
    ("7f00", 4),
    ("800000", 4),
    ("810000", 4),
    ("000100", 4),
    ("ff7f00", 4),
    ("00800000", 4),
    ("ffff0000", 4),
    ("00000800", 4),
    ("00007000", 4),
    ("0009000100", 5)] : List (String × Nat)),
    ScriptNum.make (x p.1) p.2 = .err ScriptNum.notMinimal := by decide +kernel

/-- xvm/scriptnum_test.go:211-250 -/
example : ∀ p ∈ ([
    (0, 0),
    (1, 1),
    (-1, -1),
    (127, 127),
    (-127, -127),
    (128, 128),
    (-128, -128),
    (129, 129),
    (-129, -129),
    (256, 256),
    (-256, -256),
    (32767, 32767),
    (-32767, -32767),
    (32768, 32768),
    (-32768, -32768),
    (65535, 65535),
    (-65535, -65535),
    (524288, 524288),
    (-524288, -524288),
    (7340032, 7340032),
    (-7340032, -7340032),
    (8388608, 8388608),
    (-8388608, -8388608),
    (2147483647, 2147483647),
    (-2147483647, -2147483647),
    (-2147483648, -2147483648),
    (2147483648, 2147483647),
    (-2147483649, -2147483648),
    (1152921504606846975, 2147483647),
    (-1152921504606846975, -2147483648),
    (2305843009213693951, 2147483647),
    (-2305843009213693951, -2147483648),
    (4611686018427387903, 2147483647),
    (-4611686018427387903, -2147483648),
    (9223372036854775807, 2147483647),
    (-9223372036854775808, -2147483648)] : List (Int × Int)),
    ScriptNum.int32 p.1 = p.2 := by decide +kernel

/-- xvm/scriptbuilder_test.go:23-44 -/
example : ∀ p ∈ ([
    ("", "00"),
    ("00", "00"),
    ("01", "51"),
    ("02", "52"),
    ("03", "53"),
    ("04", "54"),
    ("05", "55"),
    ("06", "56"),
    ("07", "57"),
    ("08", "58"),
    ("09", "59"),
    ("0a", "5a"),
    ("0b", "5b"),
    ("0c", "5c"),
    ("0d", "5d"),
    ("0e", "5e"),
    ("0f", "5f"),
    ("10", "60")] : List (String × String)),
    (Script.addData Buffer.new (x p.1)).data = x p.2 := by decide +kernel

/-- xvm/scriptbuilder_test.go:71-109 -/
example : ∀ p ∈ ([
    (-1, "4f"),
    (0, "00"),
    (1, "51"),
    (2, "52"),
    (3, "53"),
    (4, "54"),
    (5, "55"),
    (6, "56"),
    (7, "57"),
    (8, "58"),
    (9, "59"),
    (10, "5a"),
    (11, "5b"),
    (12, "5c"),
    (13, "5d"),
    (14, "5e"),
    (15, "5f"),
    (16, "60"),
    (17, "0111"),
    (65, "0141"),
    (127, "017f"),
    (128, "028000"),
    (255, "02ff00"),
    (256, "020001"),
    (32767, "02ff7f"),
    (32768, "03008000"),
    (-2, "0182"),
    (-3, "0183"),
    (-4, "0184"),
    (-5, "0185"),
    (-17, "0191"),
    (-65, "01c1"),
    (-127, "01ff"),
    (-128, "028080"),
    (-255, "02ff80"),
    (-256, "020081"),
    (-32767, "02ffff"),
    (-32768, "03008080")] : List (Int × String)),
    (Script.addInt64 Buffer.new p.1 >>= fun b => .ok b.data) = .ok (x p.2) := by decide +kernel

/-- xvm/scriptbuilder_test.go:141-156 -/
example : ∀ p ∈ ([
    ("OP_1 OP_15 OP_ADD OP_16 OP_EQUAL", "OP_1 OP_15 OP_ADD OP_16 OP_EQUAL"),
    ("OP_2 OP_DATA_33 0x03d9914d1e64ad12d673fd9d749d12ca21dc0e9a4648bf04b26e70989027f7cee5 OP_DATA_33 0x027ace0f7d1bef4651cdcf342a8ef2e5e4e031f7ca2c3957cae07a14d2a907933c OP_2 OP_CHECKMULTISIG", "OP_2 OP_DATA_33 03d9914d1e64ad12d673fd9d749d12ca21dc0e9a4648bf04b26e70989027f7cee5 OP_DATA_33 027ace0f7d1bef4651cdcf342a8ef2e5e4e031f7ca2c3957cae07a14d2a907933c OP_2 OP_CHECKMULTISIG")] : List (String × String)),
    (Assemble.assemble (t p.1) >>= Assemble.disasm) = .ok (t p.2) := by decide +kernel

/-- xvm/scriptbuilder_test.go:157-162 -/
example : (Assemble.assemble (t "OP_1 OP_15 X OP_ADD OP_16 OP_EQUAL")).isOk = false := by decide +kernel

/-- xvm/scriptreader_test.go:34-54, without the push of 65536 bytes -/
example : (do
    let b := Script.addOp (Script.addOp Buffer.new 0x76) 0xa9
    let b ← Script.addInt64 b 128
    let b := Script.addData (Script.addData b (List.replicate 254 1)) (List.replicate 256 1)
    let s := (Script.addOp (Script.addOp b 0x88) 0xac).data
    let s ← Script.removeOpcode s 0x4c
    let s ← Script.removeOpcode s 0x4d
    Assemble.disasm s) = .ok (t "OP_DUP OP_HASH160 OP_DATA_2 8000 OP_EQUALVERIFY OP_CHECKSIG") := by decide +kernel

/-- xcore/script_p2pkh_test.go:16-27 -/
example : Locking.rawLocking ⟨.p2pkh, x "14836dbe7f38c5ac3d49e8d790af808a4ee9edcf"⟩ = x "76a91414836dbe7f38c5ac3d49e8d790af808a4ee9edcf88ac" ∧ Assemble.disasm (x "76a91414836dbe7f38c5ac3d49e8d790af808a4ee9edcf88ac") = .ok (t "OP_DUP OP_HASH160 OP_DATA_20 14836dbe7f38c5ac3d49e8d790af808a4ee9edcf OP_EQUALVERIFY OP_CHECKSIG") := by decide +kernel

/-- xcore/script_p2sh_test.go:16-27 -/
example : Locking.rawLocking ⟨.p2sh, x "14836dbe7f38c5ac3d49e8d790af808a4ee9edcf"⟩ = x "a91414836dbe7f38c5ac3d49e8d790af808a4ee9edcf87" ∧ Assemble.disasm (x "a91414836dbe7f38c5ac3d49e8d790af808a4ee9edcf87") = .ok (t "OP_HASH160 OP_DATA_20 14836dbe7f38c5ac3d49e8d790af808a4ee9edcf OP_EQUAL") := by decide +kernel

/-- xcore/script_p2wpkh_v0_test.go:16-27 -/
example : Locking.rawLocking ⟨.p2wpkh, x "14836dbe7f38c5ac3d49e8d790af808a4ee9edcf"⟩ = x "001414836dbe7f38c5ac3d49e8d790af808a4ee9edcf" ∧ Assemble.disasm (x "001414836dbe7f38c5ac3d49e8d790af808a4ee9edcf") = .ok (t "OP_0 OP_DATA_20 14836dbe7f38c5ac3d49e8d790af808a4ee9edcf") := by decide +kernel

/-- xcore/script_p2wsh_v0_test.go:16-27 -/
example : Locking.rawLocking ⟨.p2wsh, x "b41568b8c8af2fd75f370574b629de457ecbb7bb377f9f1a602d8dfb42bc8962"⟩ = x "0020b41568b8c8af2fd75f370574b629de457ecbb7bb377f9f1a602d8dfb42bc8962" ∧ Assemble.disasm (x "0020b41568b8c8af2fd75f370574b629de457ecbb7bb377f9f1a602d8dfb42bc8962") = .ok (t "OP_0 OP_DATA_32 b41568b8c8af2fd75f370574b629de457ecbb7bb377f9f1a602d8dfb42bc8962") := by decide +kernel

/-- xcore/script_multsig_test.go:24-96 -/
example : (Locking.genMultiSig 1 [x "02192d74d0cb94344c9569c2e77901573d8d7903c3ebec3a957724895dca52c6b4", x "03b0bd634234abbb1ba1e986e884185c61cf43e001f9137f23c2c409273eb16e65"] >>= Assemble.disasm) = .ok (t "OP_1 OP_DATA_33 02192d74d0cb94344c9569c2e77901573d8d7903c3ebec3a957724895dca52c6b4 OP_DATA_33 03b0bd634234abbb1ba1e986e884185c61cf43e001f9137f23c2c409273eb16e65 OP_2 OP_CHECKMULTISIG") := by decide +kernel

/-- xcore/script_multsig_test.go:24-96 -/
example : (Locking.genMultiSig 2 [x "02192d74d0cb94344c9569c2e77901573d8d7903c3ebec3a957724895dca52c6b4", x "03b0bd634234abbb1ba1e986e884185c61cf43e001f9137f23c2c409273eb16e65"] >>= Assemble.disasm) = .ok (t "OP_2 OP_DATA_33 02192d74d0cb94344c9569c2e77901573d8d7903c3ebec3a957724895dca52c6b4 OP_DATA_33 03b0bd634234abbb1ba1e986e884185c61cf43e001f9137f23c2c409273eb16e65 OP_2 OP_CHECKMULTISIG") := by decide +kernel

/-- xcore/script_multsig_test.go:24-96 -/
example : Locking.genMultiSig 3 [x "02192d74d0cb94344c9569c2e77901573d8d7903c3ebec3a957724895dca52c6b4", x "03b0bd634234abbb1ba1e986e884185c61cf43e001f9137f23c2c409273eb16e65"] = .err Locking.errPubkeysLeNrequired := by decide +kernel

/-- xcore/script_multsig_test.go:24-96 -/
example : (Locking.genMultiSig 1 [x "0411db93e1dcdb8a016b49840f8c53bc1eb68a382e97b1482ecad7b148a6909a5cb2e0eaddfb84ccf9744464f82e160bfa9b8b64f9d4c03f999b8643f656b412a3"] >>= Assemble.disasm) = .ok (t "OP_1 OP_DATA_65 0411db93e1dcdb8a016b49840f8c53bc1eb68a382e97b1482ecad7b148a6909a5cb2e0eaddfb84ccf9744464f82e160bfa9b8b64f9d4c03f999b8643f656b412a3 OP_1 OP_CHECKMULTISIG") := by decide +kernel

/-- xcore/script_multsig_test.go:24-96 -/
example : Locking.genMultiSig 2 [x "03b0bd634234abbb1ba1e986e884185c61cf43e001f9137f23c2c409273eb16e65"] = .err Locking.errPubkeysLeNrequired := by decide +kernel

/-- xcore/script_test.go:14-18 -/
example : (Locking.parse [1]).isOk = false := by decide +kernel

/-- xcore/address_p2pkh_test.go:18-38 -/
example : (Address.make .p2pkh (x "f6889b21b5540353a29ed18c45ea0031280c42cf")).map (Address.text · mainNet) = some (t "1PUYsjwfNmX64wS368ZR5FMouTtUmvtmTY") ∧
    Address.decode (t "1PUYsjwfNmX64wS368ZR5FMouTtUmvtmTY") mainNet = .ok ⟨.p2pkh, x "f6889b21b5540353a29ed18c45ea0031280c42cf"⟩ ∧ Address.make .p2pkh (x "f6889b21b5540353a29ed18c45ea0031280c42") = none := by
  decide +kernel

/-- xcore/address_p2sh_test.go:17-37 -/
example : (Address.make .p2sh (x "f6889b21b5540353a29ed18c45ea0031280c42cf")).map (Address.text · mainNet) = some (t "3QAZoHS6vfqUA78UDEE1Vsik3zBCLfybyE") ∧
    Address.decode (t "3QAZoHS6vfqUA78UDEE1Vsik3zBCLfybyE") mainNet = .ok ⟨.p2sh, x "f6889b21b5540353a29ed18c45ea0031280c42cf"⟩ ∧ Address.make .p2sh (x "f6889b21b5540353a29ed18c45ea0031280c42") = none := by
  decide +kernel

/-- xcore/address_p2wpkh_v0_test.go:17-37 -/
example : (Address.make .p2wpkh (x "f6889b21b5540353a29ed18c45ea0031280c42cf")).map (Address.text · mainNet) = some (t "bc1q76yfkgd42sp48g576xxyt6sqxy5qcsk0t7f50w") ∧
    Address.decode (t "bc1q76yfkgd42sp48g576xxyt6sqxy5qcsk0t7f50w") mainNet = .ok ⟨.p2wpkh, x "f6889b21b5540353a29ed18c45ea0031280c42cf"⟩ ∧ Address.make .p2wpkh (x "f6889b21b5540353a29ed18c45ea0031280c42") = none := by
  decide +kernel

/-- xcore/address_p2wsh_v0_test.go:18-38 -/
example : (Address.make .p2wsh (x "b41568b8c8af2fd75f370574b629de457ecbb7bb377f9f1a602d8dfb42bc8962")).map (Address.text · mainNet) = some (t "bc1qks2k3wxg4uhawhehq46tv2w7g4lvhdamxale7xnq9kxlks4u393qmltg4f") ∧
    Address.decode (t "bc1qks2k3wxg4uhawhehq46tv2w7g4lvhdamxale7xnq9kxlks4u393qmltg4f") mainNet = .ok ⟨.p2wsh, x "b41568b8c8af2fd75f370574b629de457ecbb7bb377f9f1a602d8dfb42bc8962"⟩ ∧ Address.make .p2wsh (x "f6889b21b5540353a29ed18c45ea0031280c42") = none := by
  decide +kernel

/-- xcore/address_test.go:21-67 -/
example : (Address.decode (t "1PUYsjwfNmX64wS368ZR5FMouTtUmvtmTY") mainNet >>= fun a => .ok (Address.text a mainNet)) = .ok (t "1PUYsjwfNmX64wS368ZR5FMouTtUmvtmTY") := by decide +kernel

/-- xcore/address_test.go:21-67 -/
example : (Address.decode (t "n3zWAo2eBnxLr3ueohXnuAa8mTVBhxmPhq") testNet >>= fun a => .ok (Address.text a testNet)) = .ok (t "n3zWAo2eBnxLr3ueohXnuAa8mTVBhxmPhq") := by decide +kernel

/-- xcore/address_test.go:21-67 -/
example : (Address.decode (t "3QAZoHS6vfqUA78UDEE1Vsik3zBCLfybyE") mainNet >>= fun a => .ok (Address.text a mainNet)) = .ok (t "3QAZoHS6vfqUA78UDEE1Vsik3zBCLfybyE") := by decide +kernel

/-- xcore/address_test.go:21-67 -/
example : (Address.decode (t "2NFims2N8Y8LpMtm1tMqt7pi1GLPN8pBgBc") testNet >>= fun a => .ok (Address.text a testNet)) = .ok (t "2NFims2N8Y8LpMtm1tMqt7pi1GLPN8pBgBc") := by decide +kernel

/-- xcore/address_test.go:47-51 -/
example : Address.decode (t "2NFims2N8Y8LpMtm1tMqt7pi1GLPN8pBgBx") testNet = .err Address.errFormat := by decide +kernel

end Toku.Check.Texts
