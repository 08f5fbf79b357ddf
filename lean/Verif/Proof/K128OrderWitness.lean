import Verif.Proof.K128Order
/-!
# Concrete tags of opt_64 of ISAP-K on a big-endian platform

For an all-zero key and nonce, no associated data and a ciphertext of 18 zero bytes, and two more bytes.
-/

namespace Model.K128.Ord
open C Spec

/-- The tag; `x` and `y` are the bytes 22 and 23 after the start of the ciphertext. -/
def tag18 (R : Rounds) (x y : Byte) : List Byte :=
  macF .big R (zeros 16) (zeros 16) (fun _ => 0) 0 (fun i => if i = 22 then x else if i = 23 then y else 0) 18

set_option maxRecDepth 100000 in
theorem tag18_k128a : tag18 k128a 0 0 = [0x14, 0x86, 0xbe, 0xe5, 0xb9, 0xfb, 0x74, 0x64, 0x7e, 0x8f, 0x06, 0x8f, 0x79, 0xa9, 0x22, 0x9c] := by
  decide +kernel

set_option maxRecDepth 100000 in
theorem tag18_k128a' : (tag18 k128a 0xb9 0xfb).getD 0 0 ≠ 0x14 := by decide +kernel

end Model.K128.Ord
