import Verif.Proof.Bounds
import Verif.Props.Aead
import Verif.Props.Hash
/-!
# No implementation leaves its own arrays and tables

In `t.aeadChk` and `t.hashChk` every array that the functions declare and every table of constants has exactly the declared number
of elements; reading or writing outside of it, and reading an element that has not been written, is the outcome `UB.localOob`
(`C/Array.lean`).
-/

namespace Props
open C Model

/-- **C53** Whatever the arguments are and whatever memory contains, encryption does not leave its arrays and tables and reads no
element before it has been written; and it does the same as the program without these checks, of which the other theorems speak.
In the AVX-512 version of ISAP-A-128a the length of the message is kept in a signed 64-bit variable. -/
theorem C53_encrypt (t : Target) (e : Env) (s : St) (a : EncArgs) (hm : (∃ d, t = .a128aAvx512 d) → a.mlen < 2 ^ 63) :
    run (t.aeadChk.encrypt a) e s ≠ .ub .localOob ∧ run (t.aeadChk.encrypt a) e s = run (t.aead.encrypt a) e s :=
  ((t.aead_enc a hm).runEq e s).symm

/-- **C53** The same for decryption, of authentic and other ciphertexts. -/
theorem C53_decrypt (t : Target) (e : Env) (s : St) (a : DecArgs) :
    run (t.aeadChk.decrypt a) e s ≠ .ub .localOob ∧ run (t.aeadChk.decrypt a) e s = run (t.aead.decrypt a) e s :=
  ((t.aead_dec a).runEq e s).symm

/-- **C53** The same for `crypto_hash`. -/
theorem C53_hash (t : Target) (f g : Ptr → Ptr → Nat → CM Int) (hf : t.hash = some f) (hg : t.hashChk = some g) (e : Env) (s : St)
    (out inp : Ptr) (inlen : Nat) :
    run (g out inp inlen) e s ≠ .ub .localOob ∧ run (g out inp inlen) e s = run (f out inp inlen) e s := by
  unfold Target.hash at hf
  unfold Target.hashChk at hg
  cases hD : t.hashPrims with
  | none => rw [hD] at hf; exact nomatch hf
  | some D =>
    rw [hD] at hf hg
    cases hf
    cases hg
    exact ((Opt.Chk.cryptoHash_chk (Target.hash_quiet hD) out inp inlen).runEq e s).symm

/-- **C53** A valid call of the programs with checks succeeds. -/
theorem C53_encrypt_succeeds (t : Target) (e : Env) (s : St) (a : EncArgs) (V : ValidEnc e a) (L : t.limits.Enc e a) :
    ∃ s', Runs (t.aeadChk.encrypt a) e s 0 s' := by
  obtain ⟨s', ⟨tr, h⟩, _⟩ := C02_encrypt_succeeds t e s a V L
  refine ⟨s', tr, ?_⟩
  rw [(C53_encrypt t e s a ?_).2, h]
  rintro ⟨d, rfl⟩
  have h1 : a.mlen < min (2 ^ 63) d.ulong := L.mlen_lt
  omega

/-- **C53** A valid call of the programs with checks returns. -/
theorem C53_decrypt_returns (t : Target) (e : Env) (s : St) (a : DecArgs) (V : ValidDec e a) (L : t.limits.Dec e a) :
    ∃ r s', Runs (t.aeadChk.decrypt a) e s r s' := by
  obtain ⟨r, s', tr, h⟩ := dec_exists V L s
  exact ⟨r, s', tr, by rw [(C53_decrypt t e s a).2, h]⟩

/-! ## Examples -/

example (t : Target) : ∃ s', Runs (t.aeadChk.encrypt Sample.enc) Sample.env Sample.st 0 s' :=
  C53_encrypt_succeeds t _ _ _ Sample.validEnc (Sample.limitsEnc t)

example (t : Target) : ∃ r s', Runs (t.aeadChk.decrypt Sample.dec) Sample.env Sample.st r s' :=
  C53_decrypt_returns t _ _ _ Sample.validDec (Sample.limitsDec t)

example : ∃ f g, Target.a128aOpt8.hash = some f ∧ Target.a128aOpt8.hashChk = some g := ⟨_, _, rfl, rfl⟩

/-- The checks notice a permutation file that assumes a larger state than `isap.h` declares. -/
example : run ((Chk.aead (Ref.Chk.impl { AsconRef.Chk.cfgA128a with libSz := 41 })).encrypt Sample.enc) Sample.env Sample.st =
    .ub .localOob := rfl

/-- The checks notice a table of 7 bytes that is read as four 16-bit words. -/
example : run (K128.Chk.initS (List.replicate 16 0) (Arr.of (List.replicate 7 0)) []) Sample.env Sample.st = .ub .localOob := rfl

/-- Started at the wrong parity, the loop over the round constants runs past the terminator of the table. -/
example : run (K128.Arm.V7.Chk.roundOdd 100 20 (Vector.replicate 25 0) ⟨0, 0, 0, 0, 0, 0⟩) Sample.env Sample.st = .ub .localOob := rfl

/-- An element that has not been written. -/
example : run (aget (Arr.new 50 : Arr Byte) 3) Sample.env Sample.st = .ub .localOob := rfl

end Props
