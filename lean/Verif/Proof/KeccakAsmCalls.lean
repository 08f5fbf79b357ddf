import Verif.Proof.KeccakAsm6
import Verif.Proof.KeccakAsm7
import Verif.Proof.AsmBytes
import Verif.Proof.Perms
/-!
# The routines of the two assembler files, in terms of bytes
-/

namespace C.Thumb
open Spec

theorem Back.calleeSaved {F f : Reg → BitVec 32} (h : Back F f) : CalleeSaved F f :=
  ⟨h.r4, h.r5, h.r6, h.r7, h.r8, h.r9, h.r10, h.r11, h.sp⟩

theorem bytes_getD (m : BitVec 32 → Byte) (p : BitVec 32) {n i : Nat} (h : i < n) : (bytes m p n).getD i 0 = m (p + BitVec.ofNat 32 i) := by
  rw [List.getD_eq_getElem?_getD, List.getElem?_eq_getElem (by rw [bytes_length]; exact h), bytes_get]; rfl

theorem ofBytes_bytes (m : BitVec 32 → Byte) (p : BitVec 32) : Keccak.ofBytes (bytes m p 50) = lanes m p := by
  apply Vector.ext
  intro i hi
  rw [lanes_get m p hi, Keccak.ofBytes, Vector.getElem_ofFn, bytes_getD m p (by simp only; omega), bytes_getD m p (by simp only; omega), get16,
    show p + BitVec.ofNat 32 (i * 2) + 1 = p + BitVec.ofNat 32 (i * 2) + BitVec.ofNat 32 1 from rfl, add_add, Nat.mul_comm]

/-- From lanes to bytes. -/
theorem perm_bytes {m m' : BitVec 32 → Byte} {p : BitVec 32} {n : Nat} (h : lanes m' p = Keccak.p n (lanes m p)) :
    bytes m' p 50 = Keccak.perm n (bytes m p 50) := by
  rw [Keccak.perm, ofBytes_bytes, ← h, ← ofBytes_bytes, Keccak.toBytes_ofBytes _ (bytes_length _ _ _)]

theorem in_self (q : BitVec 32) : In q 1 q := ⟨0, Nat.one_pos, (add_zero' q).symm⟩

/-- Areas at fixed addresses. -/
theorem sep_of_le {p q : BitVec 32} {n k : Nat} (h : p.toNat + n ≤ q.toNat) (hk : q.toNat + k ≤ 2 ^ 32) : Sep p n q k := by
  rintro a ⟨i, hi, rfl⟩ ⟨j, hj, e⟩
  have e := congrArg BitVec.toNat e
  rw [BitVec.toNat_add, BitVec.toNat_add, BitVec.toNat_ofNat, BitVec.toNat_ofNat, Nat.mod_eq_of_lt (a := i) (by omega), Nat.mod_eq_of_lt (a := j) (by omega),
    Nat.mod_eq_of_lt (by omega), Nat.mod_eq_of_lt (by omega)] at e
  omega

end C.Thumb
