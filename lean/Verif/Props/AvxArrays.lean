import Verif.Proof.AvxArrays
import Verif.Props.StateArrays
/-!
# The arrays `state_enc` and `state_mac` in `crypto_aead_encrypt` of isapa128av20/avx_512 (C51)
-/

namespace Props
open C Model Spec

/-- `crypto_aead_encrypt` of isapa128av20/avx_512 with the array `state_enc` at `u` and the array `state_mac` at `v`. -/
abbrev avxEncryptIn (d : DataModel) (u v : Ptr) : EncArgs → CM Int := A128.Avx.encryptIn d u v

/-- **C51**, the property of isapa128av20/avx_512: valid calls end normally wherever the arrays are.  (Encryption has both at the same
time, so they are disjoint.) -/
def AnyAvxState (d : DataModel) : Prop :=
  (∀ (e : Env) (s : St) (a : EncArgs) (u v : Ptr), ValidEnc e a → (Target.a128aAvx512 d).limits.Enc e a → StateArray e a 40 u →
    StateArray e a 40 v → Disjoint u 40 v 40 → ∃ r s', Runs (avxEncryptIn d u v a) e s r s') ∧
  (∀ (e : Env) (s : St) (a : DecArgs) (u v : Ptr), ValidDec e a → (Target.a128aAvx512 d).limits.Dec e a → StateArrayDec e a 40 u →
    StateArrayDec e a 40 v → ∃ r s', Runs (avxDecryptIn d u v a) e s r s')

/-- **C51** If the arrays are 8-aligned, encryption has the result of `crypto_aead_encrypt` in the other theorems, and it leaves the
same memory, except for the arrays. -/
theorem C51_avx_encrypt_partial (d : DataModel) (e : Env) (s : St) (a : EncArgs) (u v : Ptr) (V : ValidEnc e a)
    (L : (Target.a128aAvx512 d).limits.Enc e a) (U : StateArray e a 40 u) (U' : StateArray e a 40 v) (hu : Aligned e 8 u 40)
    (hv : Aligned e 8 v 40) :
    ∃ s1 s2, Runs ((Target.a128aAvx512 d).aead.encrypt a) e s 0 s1 ∧ Runs (avxEncryptIn d u v a) e s 0 s2 ∧ SameExcept 40 u v s2 s1 := by
  obtain ⟨s1, h1, m1⟩ := (Target.a128aAvx512 d).encryptOK e s a V L
  obtain ⟨s2, h2, ho, _⟩ := A128.Avx.encryptInOK (s := s) d V L U U' hu hv
  exact ⟨s1, s2, h1, h2, fun b o hb hb' => by rw [ho b o hb hb', m1]; rfl⟩

/-- Nothing clears `state_enc`: after every encryption, also of an empty message, the derived key of the stream cipher remains in the
memory of the function. -/
theorem C51_avx_key_remains (d : DataModel) (e : Env) (s s' : St) (a : EncArgs) (u v : Ptr) (V : ValidEnc e a)
    (L : (Target.a128aAvx512 d).limits.Enc e a) (U : StateArray e a 40 u) (U' : StateArray e a 40 v) (hu : Aligned e 8 u 40)
    (hv : Aligned e 8 v 40) (huv : Disjoint u 40 v 40) (r : Int) (h : Runs (avxEncryptIn d u v a) e s r s') :
    bytesAt s' u 24 = isapA128a.rk (bytesAt s a.k 16) (isapA128a.iv 3) (bytesAt s a.npub 16) 24 := by
  obtain ⟨s2, h2, _, hk⟩ := A128.Avx.encryptInOK (s := s) d V L U U' hu hv
  obtain ⟨_, rfl⟩ := h.det h2
  exact hk huv

/-- **C51**, the exception: on a platform that does not tolerate misaligned accesses, every encryption is undefined if the compiler
has placed one of the arrays at an address that is not a multiple of 8. -/
theorem C51_avx_misaligned (d : DataModel) (e : Env) (he : e.strict = true) (s : St) (a : EncArgs) (u v : Ptr)
    (h : (e.base u.blk + u.off) % 8 ≠ 0 ∨ (e.base v.blk + v.off) % 8 ≠ 0) : IsUB (avxEncryptIn d u v a) e s := by
  rcases runs_or_ub (avxEncryptIn d u v a) e s with ⟨r, s', hr⟩ | hr
  · obtain ⟨_, _, _, hr⟩ := runs_bind_inv hr
    obtain ⟨_, _, hr, _⟩ := runs_bind_inv hr
    unfold A128.Avx.isapMacEncIn at hr
    obtain ⟨_, _, hst, hr⟩ := runs_bind_inv hr
    rcases h with h | h
    · unfold A128.Avx.startIn at hst
      obtain ⟨_, _, hrk, _⟩ := runs_bind_inv hst
      unfold A128.Opt64.isapRkTo at hrk
      iterate 4 obtain ⟨_, _, _, hrk⟩ := runs_bind_inv hrk
      obtain ⟨_, _, hrk, _⟩ := runs_bind_inv hrk
      exact absurd (store64_inv hrk he) h
    · obtain ⟨_, _, _, hr⟩ := runs_bind_inv hr
      obtain ⟨_, _, _, hr⟩ := runs_bind_inv hr
      obtain ⟨_, _, hr, _⟩ := runs_bind_inv hr
      exact absurd (store64_inv hr he) h
  · exact hr

theorem frameEnc_avx (d : DataModel) : (Target.a128aAvx512 d).limits.Enc frameEnv frameEnc := by
  have h20 := (Sample.limits (.a128aAvx512 d)).1
  have al : ∀ b n, b ≠ 9 → Aligned frameEnv 8 ⟨b, 0⟩ n := fun b n hb => .inr (.inr ⟨by decide, by simp [frameEnv, hb]⟩)
  exact
    { k := al _ _ (by decide), npub := al _ _ (by decide), ad := al _ _ (by decide), c := al _ _ (by decide), m := al _ _ (by decide)
      tag := .inr (.inr ⟨Nat.succ_ne_zero _, show (frameEnv.base 0 + (0 + 8)) % 8 = 0 from rfl⟩)
      adlen_lt := h20, mlen_lt := Nat.lt_trans (by decide) h20, over := fun _ _ => rfl }

/-- **C51 is false** of isapa128av20/avx_512, of encryption as of decryption. -/
theorem C51_avx_false (d : DataModel) : ¬ AnyAvxState d := by
  intro h
  obtain ⟨r, s', tr, hr⟩ := h.1 frameEnv Sample.st frameEnc ⟨10, 0⟩ ⟨9, 0⟩ frameEnc_valid (frameEnc_avx d)
    (frameEnc_state _ _ _ (by decide)) (frameEnc_state _ _ _ (by decide)) (by decide)
  obtain ⟨u, hub⟩ := C51_avx_misaligned d frameEnv rfl Sample.st frameEnc ⟨10, 0⟩ ⟨9, 0⟩ (.inr (by decide))
  rw [hr] at hub
  exact nomatch hub

/-! ### The hypotheses can be met -/

example (d : DataModel) : ∃ s', Runs (avxEncryptIn d ⟨10, 0⟩ ⟨10, 40⟩ frameEnc) frameEnv Sample.st 0 s' ∧
    bytesAt s' ⟨10, 0⟩ 24 = isapA128a.rk (bytesAt Sample.st ⟨5, 0⟩ 16) (isapA128a.iv 3) (bytesAt Sample.st ⟨4, 0⟩ 16) 24 := by
  obtain ⟨_, s', _, h, _⟩ := C51_avx_encrypt_partial d frameEnv Sample.st frameEnc ⟨10, 0⟩ ⟨10, 40⟩ frameEnc_valid (frameEnc_avx d)
    (frameEnc_state _ _ _ (by decide)) (frameEnc_state _ _ _ (by decide)) (by decide) (by decide)
  exact ⟨s', h, C51_avx_key_remains d frameEnv Sample.st s' frameEnc ⟨10, 0⟩ ⟨10, 40⟩ frameEnc_valid (frameEnc_avx d)
    (frameEnc_state _ _ _ (by decide)) (frameEnc_state _ _ _ (by decide)) (by decide) (by decide) (by decide) 0 h⟩

example (d : DataModel) : IsUB (avxEncryptIn d ⟨9, 0⟩ ⟨10, 0⟩ frameEnc) frameEnv Sample.st :=
  C51_avx_misaligned d frameEnv rfl _ _ _ _ (.inl (by decide))

end Props
