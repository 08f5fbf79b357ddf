import Verif.Proof.Mem
import Verif.Proof.AsconSpec
/-!
# Words and their bytes in memory
-/

namespace C
open Spec

theorem getLsbD_le64 (B : List Byte) {i : Nat} (hi : i < 64) :
    (le64 B).getLsbD i = (B.getD (i / 8) 0).getLsbD (i % 8) := by
  simp only [le64, BitVec.getLsbD_append]
  by_cases h0 : i < 8
  · simp only [h0, if_true]
    rw [show i / 8 = 0 by omega, show i % 8 = i by omega]
  by_cases h1 : i - 8 < 8
  · simp only [h0, h1, if_true, if_false]
    rw [show i / 8 = 1 by omega, show i % 8 = i - 8 by omega]
  by_cases h2 : i - 8 - 8 < 8
  · simp only [h0, h1, h2, if_true, if_false]
    rw [show i / 8 = 2 by omega, show i % 8 = i - 8 - 8 by omega]
  by_cases h3 : i - 8 - 8 - 8 < 8
  · simp only [h0, h1, h2, h3, if_true, if_false]
    rw [show i / 8 = 3 by omega, show i % 8 = i - 8 - 8 - 8 by omega]
  by_cases h4 : i - 8 - 8 - 8 - 8 < 8
  · simp only [h0, h1, h2, h3, h4, if_true, if_false]
    rw [show i / 8 = 4 by omega, show i % 8 = i - 8 - 8 - 8 - 8 by omega]
  by_cases h5 : i - 8 - 8 - 8 - 8 - 8 < 8
  · simp only [h0, h1, h2, h3, h4, h5, if_true, if_false]
    rw [show i / 8 = 5 by omega, show i % 8 = i - 8 - 8 - 8 - 8 - 8 by omega]
  by_cases h6 : i - 8 - 8 - 8 - 8 - 8 - 8 < 8
  · simp only [h0, h1, h2, h3, h4, h5, h6, if_true, if_false]
    rw [show i / 8 = 6 by omega, show i % 8 = i - 8 - 8 - 8 - 8 - 8 - 8 by omega]
  · simp only [h0, h1, h2, h3, h4, h5, h6, if_false]
    rw [show i / 8 = 7 by omega, show i % 8 = i - 8 - 8 - 8 - 8 - 8 - 8 - 8 by omega]

theorem getD_toLe64 (x : BitVec 64) {i : Nat} (h : i < 8) : (toLe64 x).getD i 0 = (x >>> (8 * i)).setWidth 8 := by
  simp [toLe64, List.getD, h]

theorem getLsbD_toLe64 (x : BitVec 64) {i j : Nat} (h : i < 8) (hj : j < 8) :
    ((toLe64 x).getD i 0).getLsbD j = x.getLsbD (8 * i + j) := by
  rw [getD_toLe64 x h, BitVec.getLsbD_setWidth, BitVec.getLsbD_ushiftRight]; simp [hj]

theorem le64_toLe64 (x : BitVec 64) : le64 (toLe64 x) = x := by
  apply BitVec.eq_of_getLsbD_eq
  intro i hi
  rw [getLsbD_le64 _ hi, getLsbD_toLe64 x (by omega) (by omega)]
  congr 1; omega

theorem ext_getD {A B : List Byte} {n : Nat} (hA : A.length = n) (hB : B.length = n)
    (h : ∀ i, i < n → ∀ j, j < 8 → (A.getD i 0).getLsbD j = (B.getD i 0).getLsbD j) : A = B := by
  apply List.ext_getElem (by omega)
  intro i h1 h2
  apply BitVec.eq_of_getLsbD_eq
  intro j hj
  have := h i (by omega) j hj
  simpa [List.getD, h1, h2] using this

theorem toLe64_le64 {B : List Byte} (h : B.length = 8) : toLe64 (le64 B) = B := by
  apply ext_getD (n := 8) (by simp) h
  intro i hi j hj
  rw [getLsbD_toLe64 _ hi hj, getLsbD_le64 _ (by omega), show (8 * i + j) / 8 = i by omega, show (8 * i + j) % 8 = j by omega]

theorem toLe64_inj {x y : BitVec 64} (h : toLe64 x = toLe64 y) : x = y := by
  rw [← le64_toLe64 x, h, le64_toLe64]

theorem toLe64_xor (x y : BitVec 64) : toLe64 (x ^^^ y) = xorBytes (toLe64 x) (toLe64 y) := by
  apply List.ext_getElem
  · simp [xorBytes]
  · intro i h1 h2
    simp [toLe64, xorBytes, BitVec.ushiftRight_xor_distrib]

/-- Byte swap relates the two byte orders. -/
theorem getLsbD_ofBe64 (B : List Byte) {i : Nat} (hi : i < 64) :
    (ofBe64 B).getLsbD i = (B.getD (7 - i / 8) 0).getLsbD (i % 8) := by
  rw [ofBe64, getLsbD_ofBits]; simp [hi]

end C
