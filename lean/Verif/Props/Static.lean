import Verif.Proof.Static
import Verif.Props.Threads
/-!
# C44: nothing about the key remains in static storage
-/

namespace Props
open C Model Spec

/-- **C44** Whatever its arguments, a call of `crypto_aead_encrypt`, `crypto_aead_decrypt` or `crypto_hash` that ends leaves the
global variables as they were, except encryption and decryption of the stp variants. -/
theorem C44_static_unchanged (x : Job) (hx : x.stp = false) (e : Env) (s s' : St) (r : Int) (h : Runs x.prog e s r s') :
    s'.s0 = s.s0 ∧ s'.s1 = s.s1 :=
  (x.noGlob hx).runs h

/-- The hypotheses of `C44_static_unchanged` are met, for every implementation that is not an stp variant. -/
example (t : Target) (ht : t.stp = false) :
    ∃ r s', (Job.enc t Sample.enc).stp = false ∧ Runs (Job.enc t Sample.enc).prog Sample.env Sample.st r s' := by
  obtain ⟨s', h, _⟩ := t.encryptOK _ Sample.st _ Sample.validEnc (Sample.limitsEnc t)
  exact ⟨0, s', ht, h⟩

/-- After every call of `t` that is valid the global variables are this function of the nonce, the associated data and the
ciphertext without its tag. -/
structure LeavesPublic (t : Target) (F : (N A C : List Byte) → BitVec 64 × BitVec 64) : Prop where
  enc : ∀ (e : Env) (s s' : St) (a : EncArgs) (r : Int), ValidEnc e a → t.limits.Enc e a → Runs (t.aead.encrypt a) e s r s' →
    (s'.s0, s'.s1) = F (bytesAt s a.npub 16) (bytesAt s a.ad a.adlen) (bytesAt s' a.c a.mlen)
  dec : ∀ (e : Env) (s s' : St) (d : DecArgs) (r : Int), ValidDec e d → t.limits.Dec e d → Runs (t.aead.decrypt d) e s r s' →
    (s'.s0, s'.s1) = F (bytesAt s d.npub 16) (bytesAt s d.ad d.adlen) (bytesAt s d.c (d.clen - 16))

theorem leavesPublic {t : Target} {D : Opt.StpPrims} {φ : BitVec 64 → BitVec 64} (O : Opt.StpOK D φ Spec.Ascon.p)
    (P : Opt.PrimsShape D.toPrims) (ha : t.aead = Opt.Stp.aead D) (hl : t.limits = .byWords) (hsp : t.spec = isapA128a) :
    LeavesPublic t (Opt.Stp.left φ) where
  enc e s s' a r V L h := by
    have hc := enc_c V L h
    rw [Target.out, hsp] at hc
    have : bytesAt s' a.c a.mlen = isapA128a.enc (bytesAt s a.k 16) (bytesAt s a.npub 16) (bytesAt s a.m a.mlen) := by
      have := congrArg (List.take a.mlen) hc
      rw [bytesAt_take _ _ _ _ (by omega)] at this
      rw [this, Params.encrypt]
      simp
    rw [this]
    rw [ha] at h; rw [hl] at L
    exact Opt.Stp.enc_left O V L h
  dec e s s' d r V L h := by
    rw [ha] at h; rw [hl] at L
    exact Opt.Stp.dec_left O P V.toValidDecIn L h

/-- **C44** What an encryption or decryption of an stp variant leaves in the global variables is a function of the nonce, the
associated data and the ciphertext without its tag: it depends on the key and on the message in no other way, and it depends
neither on the received tag nor on whether it is accepted. -/
theorem C44_static_public (t : Target) (hstp : t.stp = true) : ∃ F, LeavesPublic t F := by
  cases t
  case a128aOpt32Stp => exact ⟨_, leavesPublic Opt.Opt32.stpOK (Opt.switch7_shape _ _ _ _ _ _ _).prims rfl rfl rfl⟩
  case a128aBi32Stp => exact ⟨_, leavesPublic Opt.Bi32.stpOK (Opt.switch7_shape _ _ _ _ _ _ _).prims rfl rfl rfl⟩
  case a128aBi32Armv6mStp => exact ⟨_, leavesPublic Opt.Armv6m.stpOK (Opt.switch7_shape _ _ _ _ _ _ _).prims rfl rfl rfl⟩
  all_goals exact nomatch hstp

/-- Calls as in `C44_static_public` exist, for both functions of every stp variant. -/
example (t : Target) (_ : t.stp = true) : ∃ s1 r s2, Runs (t.aead.encrypt Sample.enc) Sample.env Sample.st 0 s1 ∧
    Runs (t.aead.decrypt Sample.dec) Sample.env s1 r s2 := by
  obtain ⟨s1, h, _⟩ := t.encryptOK _ Sample.st _ Sample.validEnc (Sample.limitsEnc t)
  obtain ⟨r, s2, h2⟩ := dec_exists Sample.validDec (Sample.limitsDec t) s1
  exact ⟨s1, r, s2, h, h2⟩

end Props
