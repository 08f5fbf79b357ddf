import Verif.Proof.AvxLong
import Verif.Props.Aead
/-!
# Messages of `2^63` bytes and more in the AVX-512 version of ISAP-A-128a

C32 and C53 speak of all lengths.  `isapa128av20/avx_512` keeps the length of the message in a `long long`
(`isap.c` line 425): it becomes negative, the "remaining" bytes of the first lane (line 441) are the whole message, and
lines 488-491 copy that many bytes out of the 8-byte variable `tmpc1`.  (On platforms with a 32-bit `unsigned long` the loop in
line 449 does not end at all; the theorems are about 64-bit ones.)
-/

namespace Props
open C Model

/-- **C32 is false** of avx_512 of isapa128av20 for messages of `2^63` bytes or more: every such call with valid arguments has
undefined behaviour, ... -/
theorem C32_false_avx512 (e : Env) (he : e.strict = false) (s : St) (a : EncArgs) (V : ValidEnc e a) (h : 2 ^ 63 ≤ a.mlen) :
    run ((Target.a128aAvx512 .lp64).aead.encrypt a) e s = .ub .localOob := by
  have hlt := V.mlen_lt
  have hc : Writable e a.c a.mlen := V.c.mono (Nat.le_add_right _ _)
  exact (Ends.storeLen he V.clen).fails (fun _ _ => (A128.Avx.fails_isapMacEnc he V.k V.npub V.ad V.m hc h (by omega)).bind) s

/-- ... because it reads beyond the end of a local variable: the condition of C53 for this implementation is necessary. -/
theorem C53_false_avx512 (e : Env) (he : e.strict = false) (s : St) (a : EncArgs) (V : ValidEnc e a) (h : 2 ^ 63 ≤ a.mlen) :
    run ((Target.a128aAvx512 .lp64).aeadChk.encrypt a) e s = .ub .localOob := by
  have hlt := V.mlen_lt
  have hc : Writable e a.c a.mlen := V.c.mono (Nat.le_add_right _ _)
  exact (Ends.storeLen he V.clen).fails (fun _ _ => (A128.Avx.Chk.fails_isapMacEnc he V.k V.npub V.ad V.m hc h (by omega)).bind) s

/-- **C53**, both cases together: the AVX-512 version of ISAP-A-128a stays within its arrays exactly for messages of less than
`2^63` bytes. -/
theorem C53_avx512_iff (e : Env) (he : e.strict = false) (s : St) (a : EncArgs) (V : ValidEnc e a) :
    run ((Target.a128aAvx512 .lp64).aeadChk.encrypt a) e s ≠ .ub .localOob ↔ a.mlen < 2 ^ 63 := by
  constructor
  · intro h
    by_cases h' : a.mlen < 2 ^ 63
    · exact h'
    · exact absurd (C53_false_avx512 e he s a V (by omega)) h
  · intro h
    exact ((Target.aead_enc (.a128aAvx512 .lp64) a fun _ => h).runEq e s).2

/-! ## Example -/

/-- Objects without end. -/
def hugeEnv : Env where
  rd b _ := decide (b < 8)
  wr b _ := decide (b = 0 ∨ b = 1)
  base _ := 0
  strict := false

/-- An in-place encryption of `2^63` bytes. -/
def hugeEnc : EncArgs := { c := ⟨0, 0⟩, clen := ⟨1, 0⟩, m := ⟨0, 0⟩, mlen := 2 ^ 63, ad := ⟨3, 0⟩, adlen := 7, nsec := ⟨9, 0⟩, npub := ⟨4, 0⟩, k := ⟨5, 0⟩ }

theorem huge_valid : ValidEnc hugeEnv hugeEnc :=
  { k := fun _ _ => rfl, npub := fun _ _ => rfl, ad := fun _ _ => rfl, m := fun _ _ => rfl, c := fun _ _ => ⟨rfl, rfl⟩,
    clen := fun _ _ => ⟨rfl, rfl⟩, adlen_lt := by decide, mlen_lt := by decide, c_m := by decide, c_ad := by decide,
    c_npub := by decide, c_k := by decide, clen_c := by decide, clen_m := by decide, clen_ad := by decide, clen_npub := by decide,
    clen_k := by decide }

/-- Such calls exist in the model. -/
example (s : St) : run ((Target.a128aAvx512 .lp64).aead.encrypt hugeEnc) hugeEnv s = .ub .localOob :=
  C32_false_avx512 hugeEnv rfl s hugeEnc huge_valid (by decide)

end Props
