import Verif.Proof.WorkApi
import Verif.Props.Hash
/-!
# The number of steps of a call (C47)

A step is an event of the execution: an access to memory or to a global variable, or a branch.  Between two steps there is only
straight-line code and loops with a constant number of iterations; its length depends on the implementation but not on the arguments.
-/

namespace Props
open C Model

/-- **C47** Every valid encryption ends, after a number of steps that is at most linear in the lengths of the associated data and of
the message, whatever the key, the nonce and the data are. -/
theorem C47_encrypt_linear (t : Target) (e : Env) (s : St) (a : EncArgs) (V : ValidEnc e a) (L : t.limits.Enc e a) :
    ∃ s' tr, run (t.aead.encrypt a) e s = .ok 0 s' tr ∧ tr.length ≤ 24 * (a.adlen + a.mlen) + 8200 := by
  obtain ⟨s', ⟨tr, h⟩, _⟩ := t.encryptOK e s a V L
  exact ⟨s', tr, h, t.endsIn_encrypt a L.mlen_lt e s _ _ _ h⟩

/-- **C47** Every valid decryption ends, after a number of steps that is at most linear in the lengths of the associated data and of
the ciphertext, whether the tag is accepted or not. -/
theorem C47_decrypt_linear (t : Target) (e : Env) (s : St) (d : DecArgs) (V : ValidDec e d) (L : t.limits.Dec e d) :
    ∃ r s' tr, run (t.aead.decrypt d) e s = .ok r s' tr ∧ tr.length ≤ 24 * (d.adlen + d.clen) + 8200 := by
  obtain ⟨r, s', tr, h⟩ := dec_exists V L s
  exact ⟨r, s', tr, h, t.endsIn_decrypt d V.clen_ge V.clen_lt e s _ _ _ h⟩

/-- **C47** Every valid call of `crypto_hash` ends, after a number of steps that is at most linear in the length of the input. -/
theorem C47_hash_linear (t : Target) (f : Ptr → Ptr → Nat → CM Int) (hf : t.hash = some f) (e : Env) (s : St) (a : HashArgs)
    (hal : AlignedHash e a) (V : ValidHash e a) :
    ∃ s' tr, run (f a.out a.inp a.inlen) e s = .ok 0 s' tr ∧ tr.length ≤ 2 * a.inlen + 110 := by
  obtain ⟨tr, h⟩ := Target.hash_run hf hal V s
  exact ⟨_, tr, h, Target.endsIn_hash hf _ _ _ e s _ _ _ h⟩

/-- The hypotheses of the three theorems are met, for every implementation. -/
example (t : Target) : ValidEnc Sample.env Sample.enc ∧ t.limits.Enc Sample.env Sample.enc ∧ ValidDec Sample.env Sample.dec ∧
    t.limits.Dec Sample.env Sample.dec :=
  ⟨Sample.validEnc, Sample.limitsEnc t, Sample.validDec, Sample.limitsDec t⟩

example : ∃ f, Target.a128aOpt64.hash = some f ∧ AlignedHash sampleHashEnv sampleHash ∧ ValidHash sampleHashEnv sampleHash :=
  ⟨_, rfl, sampleHash_aligned, sampleHash_valid⟩

end Props
