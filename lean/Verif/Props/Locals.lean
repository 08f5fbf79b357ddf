import Verif.Proof.Locals
import Verif.Props.Aead
/-!
# C45: results do not depend on uninitialised memory
-/

namespace Props
open C Model Spec

/-- What the memory of all uninitialised local variables contains: those of `Model/Locals.lean`, and those of
`isapk128av20/avx512`, which `Model/K128.lean` makes part of the implementation. -/
structure Garbage where
  locals : Locals
  avx : K128.Avx.Junk

/-- The implementation `t` when uninitialised local variables contain `g`. -/
def withGarbage (g : Garbage) : Target → Aead
  | .k128aAvx512 _ => (Target.k128aAvx512 g.avx).aeadFrom g.locals
  | t => t.aeadFrom g.locals

theorem encryptOK_withGarbage (g : Garbage) (t : Target) : EncryptOK t.spec t.limits (withGarbage g t).encrypt := by
  cases t
  case k128aAvx512 j => exact Target.encryptOKFrom g.locals (.k128aAvx512 g.avx)
  all_goals exact Target.encryptOKFrom g.locals _

theorem decryptOK_withGarbage (g : Garbage) (t : Target) : DecryptOK t.spec t.limits t.acc (withGarbage g t).decrypt := by
  cases t
  case k128aAvx512 j => exact Target.decryptOKFrom g.locals (.k128aAvx512 g.avx)
  all_goals exact Target.decryptOKFrom g.locals _

/-- **C45** Encryption returns 0 and leaves the same memory, whatever uninitialised local variables contain. -/
theorem C45_encrypt_initialised (t : Target) (g g' : Garbage) (e : Env) (s : St) (a : EncArgs) (V : ValidEnc e a)
    (L : t.limits.Enc e a) :
    ∃ s1 s2, Runs ((withGarbage g t).encrypt a) e s 0 s1 ∧ Runs ((withGarbage g' t).encrypt a) e s 0 s2 ∧ s1.mem = s2.mem := by
  obtain ⟨s1, h1, m1⟩ := encryptOK_withGarbage g t e s a V L
  obtain ⟨s2, h2, m2⟩ := encryptOK_withGarbage g' t e s a V L
  exact ⟨s1, s2, h1, h2, m1.trans m2.symm⟩

/-- **C45** Decryption returns the same value and leaves the same memory, whatever uninitialised local variables contain. -/
theorem C45_decrypt_initialised (t : Target) (g g' : Garbage) (e : Env) (s : St) (d : DecArgs) (V : ValidDec e d)
    (L : t.limits.Dec e d) :
    ∃ r s1 s2, Runs ((withGarbage g t).decrypt d) e s r s1 ∧ Runs ((withGarbage g' t).decrypt d) e s r s2 ∧ s1.mem = s2.mem := by
  by_cases hacc : t.accepts s d
  · obtain ⟨s1, h1, m1⟩ := (decryptOK_withGarbage g t e s d V.toValidDecIn L).1 hacc V
    obtain ⟨s2, h2, m2⟩ := (decryptOK_withGarbage g' t e s d V.toValidDecIn L).1 hacc V
    exact ⟨0, s1, s2, h1, h2, m1.trans m2.symm⟩
  · obtain ⟨s1, h1, m1⟩ := (decryptOK_withGarbage g t e s d V.toValidDecIn L).2 hacc
    obtain ⟨s2, h2, m2⟩ := (decryptOK_withGarbage g' t e s d V.toValidDecIn L).2 hacc
    exact ⟨-1, s1, s2, h1, h2, m1.trans m2.symm⟩

/-- The implementation of the other theorems is one with some contents of the uninitialised variables: zeros, and for
`isapk128av20/avx512` the given ones. -/
theorem C45_model_is_instance (t : Target) : ∃ g, withGarbage g t = t.aead := by
  let z : Locals := ⟨fun _ => 0, ⟨0, 0, 0, 0, 0⟩⟩
  have hr : ∀ p : ParamSet, (Ref.implFrom z p.cfg).aead = (Ref.impl p.cfg).aead := by
    intro p
    have : Ref.isapEncFrom z p.cfg = Ref.isapEnc p.cfg := rfl
    unfold Ref.implFrom
    rw [this]
    rfl
  cases t
  case k128aAvx512 j => exact ⟨⟨z, j⟩, rfl⟩
  case ref p => exact ⟨⟨z, ⟨0, 0, 0, 0⟩⟩, hr p⟩
  case x p => exact ⟨⟨z, ⟨0, 0, 0, 0⟩⟩, hr p⟩
  all_goals refine ⟨⟨z, ⟨0, 0, 0, 0⟩⟩, ?_⟩; rfl

/-- The hypotheses of `C45_encrypt_initialised` and `C45_decrypt_initialised` are met, for every implementation and two different
contents of uninitialised variables. -/
example (t : Target) : ∃ g g' : Garbage, g ≠ g' ∧ ValidEnc Sample.env Sample.enc ∧ t.limits.Enc Sample.env Sample.enc ∧
    ValidDec Sample.env Sample.dec ∧ t.limits.Dec Sample.env Sample.dec := by
  refine ⟨⟨⟨fun _ => 0, ⟨0, 0, 0, 0, 0⟩⟩, ⟨0, 0, 0, 0⟩⟩, ⟨⟨fun _ => 1, ⟨1, 2, 3, 4, 5⟩⟩, ⟨5, 6, 7, 8⟩⟩, ?_, Sample.validEnc,
    Sample.limitsEnc t, Sample.validDec, Sample.limitsDec t⟩
  intro h
  have := congrArg (fun g => g.locals.bytes 0) h
  exact absurd this (by decide)

end Props
