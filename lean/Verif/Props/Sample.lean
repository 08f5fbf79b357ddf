import Verif.Proof.Contract
import Verif.Model.Targets
/-!
# A concrete call

Used in the `example`s that show that the hypotheses of the property theorems can be met: ten objects, of exactly the sizes
the call needs (the object of the associated data has a few more bytes, for the implementations that need them).
-/

namespace Sample
open C Model

/-- Sizes: ciphertext 0, length cell 1, message 2, associated data 3, nonce 4, key 5, no object 6, plaintext 7, length cell 8. -/
def size : Nat → Nat
  | 0 => 19
  | 1 => 8
  | 2 => 3
  | 3 => 26
  | 4 => 16
  | 5 => 16
  | 7 => 3
  | 8 => 8
  | _ => 0

def env : Env where
  rd b o := decide (o < size b)
  wr b o := decide (o < size b) && (b == 0 || b == 1 || b == 7 || b == 8)
  base _ := 0
  strict := false

/-- Encrypt a message of 3 bytes with 20 bytes of associated data. -/
def enc : EncArgs where
  c := ⟨0, 0⟩
  clen := ⟨1, 0⟩
  m := ⟨2, 0⟩
  mlen := 3
  ad := ⟨3, 0⟩
  adlen := 20
  nsec := ⟨6, 0⟩
  npub := ⟨4, 0⟩
  k := ⟨5, 0⟩

/-- Decrypt the result into a third buffer. -/
def dec : DecArgs where
  m := ⟨7, 0⟩
  mlen := ⟨8, 0⟩
  nsec := ⟨6, 0⟩
  c := ⟨0, 0⟩
  clen := 19
  ad := ⟨3, 0⟩
  adlen := 20
  npub := ⟨4, 0⟩
  k := ⟨5, 0⟩

/-- Some memory contents. -/
def st : St where
  mem b o := BitVec.ofNat 8 (17 * b + o)
  s0 := 0
  s1 := 0

theorem readable (b n : Nat) (h : n ≤ size b) : Readable env ⟨b, 0⟩ n := by
  intro i hi; simp only [env, Nat.zero_add]; exact decide_eq_true (by omega)

theorem writable (b n : Nat) (h : n ≤ size b) (hb : (b == 0 || b == 1 || b == 7 || b == 8) = true) :
    Writable env ⟨b, 0⟩ n := by
  intro i hi
  refine ⟨readable b n h i hi, ?_⟩
  simp only [env, Nat.zero_add, hb, Bool.and_true]; exact decide_eq_true (by omega)

theorem validEnc : ValidEnc env enc where
  k := readable _ _ (by decide)
  npub := readable _ _ (by decide)
  ad := readable _ _ (by decide)
  m := readable _ _ (by decide)
  c := writable _ _ (by decide) (by decide)
  clen := writable _ _ (by decide) (by decide)
  adlen_lt := by decide
  mlen_lt := by decide
  c_m := by decide
  c_ad := by decide
  c_npub := by decide
  c_k := by decide
  clen_c := by decide
  clen_m := by decide
  clen_ad := by decide
  clen_npub := by decide
  clen_k := by decide

theorem validDec : ValidDec env dec where
  k := readable _ _ (by decide)
  npub := readable _ _ (by decide)
  ad := readable _ _ (by decide)
  c := readable _ _ (by decide)
  mlen := writable _ _ (by decide) (by decide)
  adlen_lt := by decide
  clen_lt := by decide
  clen_ge := by decide
  mlen_c := by decide
  mlen_ad := by decide
  mlen_npub := by decide
  mlen_k := by decide
  m := writable _ _ (by decide) (by decide)
  m_c := by decide
  mlen_m := by decide

theorem limits (t : Target) : 20 < t.limits.maxLen ∧ t.limits.ext 20 ≤ 26 := by
  cases t
  case a128aAvx512 d => cases d <;> simp [Target.limits, DataModel.ulong]
  case a128Opt64 d => cases d <;> simp [Target.limits, DataModel.ulong]
  all_goals simp [Target.limits, K128.Opt64.ext]

theorem limitsEnc (t : Target) : t.limits.Enc env enc :=
  Limits.enc_tolerant rfl (limits t).1 (Nat.lt_trans (by decide) (limits t).1) (readable _ _ (limits t).2)

theorem limitsDec (t : Target) : t.limits.Dec env dec :=
  Limits.dec_tolerant rfl (limits t).1 (Nat.lt_trans (by decide) (limits t).1) (readable _ _ (limits t).2)

end Sample
