import Verif.Spec.Bytes
/-!
# Bitwise ternary logic of AVX-512
-/

namespace C.Simd

/-- `_mm512_ternarylogic_epi64(a, b, c, imm)` (and the 128-bit version), restricted to `w` bits: every bit of the result is the
bit of `imm` selected by the bits of `a`, `b`, `c`. -/
def tern (imm : BitVec 8) (a b c : BitVec w) : BitVec w :=
  Spec.ofBits w fun i => imm.getLsbD (4 * (a.getLsbD i).toNat + 2 * (b.getLsbD i).toNat + (c.getLsbD i).toNat)

end C.Simd
