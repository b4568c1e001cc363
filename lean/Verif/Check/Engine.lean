import Verif.Check.Build
import Verif.Model.Assemble
/-
Cases of /repo/xvm/testdata/vm.json run as /repo/xvm/engine_test.go:17-60 runs them: both texts are assembled, the engine
verifies them, and the error number is the one the file states. The hash is that of 01 02 03 04 and signatures are checked on the real
curve. These are checks that the model computes what the code computes, not properties. The final stacks the file lists are not
compared: the model of Verify does not return them. Six of the 26 cases, with more signatures, are left out for time and
memory; they agree as well. (Check/Build.lean is imported only so that the two are not built at the same time.)
-/
namespace Toku.Check

attribute [local instance] Sha.realHashes

/-- The engine of engine_test.go: the hash of the transaction and the verifier. -/
def vmEnv : VM.Env := ⟨hash160, some fun _ => .ok (sha256d [1, 2, 3, 4]), some Ecdsa.verifyBytes⟩

/-- Load both texts, then Verify. -/
def vmRun (locking unlocking : String) : Res Unit := do
  let l ← Assemble.assemble (ascii locking.toList)
  let u ← Assemble.assemble (ascii unlocking.toList)
  let _ ← VM.verify vmEnv u l VM.fresh
  return ()

/-- numeric.OP_ADD -/
example : vmRun "OP_ADD OP_16 OP_EQUAL"
    "OP_1 OP_15" =
    .ok () := by decide +kernel

/-- numeric.OP_ADD.error -/
example : vmRun "OP_ADD OP_15 OP_EQUAL"
    "OP_1 OP_15" =
    .err (.num 1300) := by decide +kernel

/-- numeric.OP_ADD.pop1.error -/
example : vmRun "OP_ADD OP_15 OP_EQUAL"
    "OP_1" =
    .err (.num 1110) := by decide +kernel

/-- crypto.OP_CHECKSIG -/
example : vmRun "OP_DUP OP_HASH160 OP_DATA_20 0x751e76e8199196d454941c45d1b3a323f1433bd6 OP_EQUALVERIFY OP_CHECKSIG"
    "OP_DATA_71 0x304402205ace0f3eb575dab1957f51ac25ad130f44fb5ce29df7714121c7c973cb7a304f02202dd1ed0e62947262e4e63dea29e17f77db5c98084bc9ead21e370972e4ec7d9601 OP_DATA_33 0x0279be667ef9dcbbac55a06295ce870b07029bfcdb2dce28d959f2815b16f81798" =
    .ok () := by decide +kernel

/-- crypto.OP_CHECKSIG.signature.length.0 -/
example : vmRun "OP_DUP OP_HASH160 OP_DATA_20 0x751e76e8199196d454941c45d1b3a323f1433bd6 OP_EQUALVERIFY OP_CHECKSIG"
    "OP_0 OP_DATA_33 0x0279be667ef9dcbbac55a06295ce870b07029bfcdb2dce28d959f2815b16f81798" =
    .err (.num 1300) := by decide +kernel

/-- flowcontrol.OP_RETURN -/
example : vmRun "OP_TRUE"
    "OP_RETURN 'TokuBlock'" =
    .ok () := by decide +kernel

/-- stack.OP_DUP -/
example : vmRun "OP_DUP OP_EQUAL"
    "OP_1" =
    .ok () := by decide +kernel

/-- stack.OP_2DUP -/
example : vmRun "OP_2DUP OP_ADD OP_ADD OP_ADD 6 OP_EQUAL"
    "OP_1 OP_2" =
    .ok () := by decide +kernel

/-- stack.OP_3DUP -/
example : vmRun "OP_3DUP OP_ADD OP_ADD OP_ADD OP_ADD OP_ADD 12 OP_EQUALVERIFY"
    "OP_1 OP_2 OP_3" =
    .ok () := by decide +kernel

/-- stack.OP_SWAP -/
example : vmRun "OP_SWAP"
    "OP_1 OP_2" =
    .ok () := by decide +kernel

/-- stack.OP_DROPN -/
example : vmRun "OP_DROP"
    "OP_1 OP_2 OP_3" =
    .ok () := by decide +kernel

/-- flowcontrol.OP_IF -/
example : vmRun "OP_IF OP_1 OP_2 OP_ADD OP_3 OP_EQUAL OP_ELSE OP_2 OP_3 OP_ADD OP_5 OP_ENDIF"
    "OP_TRUE" =
    .ok () := by decide +kernel

/-- flowcontrol.OP_IF.nested -/
example : vmRun "OP_IF OP_TRUE OP_IF OP_2 OP_3 OP_ADD OP_5 OP_EQUAL OP_ELSE OP_2 OP_3 OP_ADD OP_5 OP_EQUAL OP_ENDIF OP_ELSE OP_2 OP_3 OP_ADD OP_5 OP_ENDIF"
    "OP_FALSE" =
    .ok () := by decide +kernel

/-- flowcontrol.OP_IF.error -/
example : vmRun "OP_IF OP_1 OP_2 OP_ADD OP_3 OP_EQUAL OP_ELSE OP_2 OP_3 OP_ADD OP_5 OP_ENDIF"
    "'abc'" =
    .err (.num 1300) := by decide +kernel

/-- flowcontrol.OP_ELSE -/
example : vmRun "OP_IF OP_1 OP_2 OP_ADD OP_3 OP_EQUAL OP_ELSE OP_2 OP_3 OP_ADD OP_5 OP_EQUAL OP_ENDIF"
    "OP_FALSE" =
    .ok () := by decide +kernel

/-- flowcontrol.OP_ELSE.error -/
example : vmRun "OP_1 OP_2 OP_ADD OP_3 OP_EQUAL OP_ELSE OP_2 OP_3 OP_ADD OP_5 OP_EQUAL OP_ENDIF"
    "OP_FALSE" =
    .err (.num 1300) := by decide +kernel

/-- flowcontrol.OP_NOTIF -/
example : vmRun "OP_NOTIF OP_1 OP_2 OP_ADD OP_3 OP_EQUAL OP_ELSE OP_2 OP_3 OP_ADD OP_5 OP_EQUAL OP_ENDIF"
    "OP_FALSE" =
    .ok () := by decide +kernel

/-- flowcontrol.OP_NOTIF.nested -/
example : vmRun "OP_NOTIF OP_TRUE OP_NOTIF OP_1 OP_2 OP_ADD OP_3 OP_EQUAL OP_ENDIF OP_ELSE OP_2 OP_3 OP_ADD OP_5 OP_EQUAL OP_ENDIF"
    "OP_TRUE" =
    .ok () := by decide +kernel

/-- bitwise.OP_EQUAL.error -/
example : vmRun "OP_EQUAL"
    "OP_1" =
    .err (.num 1110) := by decide +kernel

/-- bitwise.OP_EQUALVERIFY.error -/
example : vmRun "OP_EQUALVERIFY"
    "OP_1" =
    .err (.num 1110) := by decide +kernel

end Toku.Check
