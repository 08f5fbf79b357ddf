import Verif.Proof.Placement
import Verif.Props.Limits
/-!
# Local arrays (C51)
-/

namespace Props
open C Model Spec

/-- **C51**, the property of one implementation: a valid decryption that respects the limits of the implementation ends normally
wherever its local arrays are (`unsigned char` has no alignment requirement) as long as the caller does not use this memory. -/
def AnyPlacement (t : Target) : Prop :=
  ∀ (e : Env) (s : St) (a : DecArgs) (u v : Ptr), ValidDec e a → t.limits.Dec e a → LocalArray e a u → LocalArray e a v →
    Disjoint u 16 v 16 → ∃ r s', Runs (t.decryptAt u v a) e s r s'

/-- **C51** If the local arrays have the alignment of the words by which the implementation accesses them, decryption has the
result of `crypto_aead_decrypt` in the other theorems, and it leaves the same memory, except for the local arrays. -/
theorem C51_decrypt_partial (t : Target) (e : Env) (s : St) (a : DecArgs) (u v : Ptr) (V : ValidDec e a) (L : t.limits.Dec e a)
    (U : LocalArray e a u) (U' : LocalArray e a v) (huv : Disjoint u 16 v 16) (hu : Aligned e t.localAlign u 16)
    (hv : Aligned e t.localAlign v 16) :
    ∃ r s1 s2, Runs (t.aead.decrypt a) e s r s1 ∧ Runs (t.decryptAt u v a) e s r s2 ∧ SameOff u v s2 s1 := by
  have K := t.decryptAtOK e s a u v V.toValidDecIn L U U' huv hu hv
  obtain ⟨r, s1, h⟩ := dec_exists V L s
  rcases dec_run V L h with ⟨hacc, rfl, hm⟩ | ⟨hacc, rfl, hm⟩
  · obtain ⟨s2, h2, _, ho⟩ := K.1 hacc V
    exact ⟨_, s1, s2, h, h2, fun b o h1 h2 => by rw [ho b o h1 h2, hm]; rfl⟩
  · obtain ⟨s2, h2, _, ho⟩ := K.2 hacc
    exact ⟨_, s1, s2, h, h2, fun b o h1 h2 => by rw [ho b o h1 h2, hm]⟩

/-- Nothing clears the array: also when a forgery is rejected, the tag that would have been accepted remains in the memory of the
function. -/
theorem C51_tag_remains (t : Target) (hc : t.conforming = true) (e : Env) (s s' : St) (a : DecArgs) (u v : Ptr) (V : ValidDec e a)
    (L : t.limits.Dec e a) (U : LocalArray e a u) (U' : LocalArray e a v) (huv : Disjoint u 16 v 16)
    (hu : Aligned e t.localAlign u 16) (hv : Aligned e t.localAlign v 16) (r : Int) (h : Runs (t.decryptAt u v a) e s r s') :
    bytesAt s' u 16 = t.set.spec.mac (bytesAt s a.k 16) (bytesAt s a.npub 16) (bytesAt s a.ad a.adlen) (bytesAt s a.c (a.clen - 16)) := by
  have K := t.decryptAtOK e s a u v V.toValidDecIn L U U' huv hu hv
  rw [← t.spec_eq hc]
  by_cases hacc : t.accepts s a
  · obtain ⟨s2, h2, hb, _⟩ := K.1 hacc V
    obtain ⟨_, rfl⟩ := h.det h2
    exact hb
  · obtain ⟨s2, h2, hb, _⟩ := K.2 hacc
    obtain ⟨_, rfl⟩ := h.det h2
    exact hb

theorem load64_inv {e : Env} {s s' : St} {p : Ptr} {r : BitVec 64} (h : Runs (load64 p) e s r s') (he : e.strict = true) :
    (e.base p.blk + p.off) % 8 = 0 := by
  unfold load64 at h
  obtain ⟨_, _, ⟨tr, h⟩, _⟩ := runs_bind_inv h
  simp only [load, run] at h
  split at h
  · split at h
    · rename_i ha
      simpa [alignedOk, he] using ha
    · simp at h
  · simp at h

theorem decryptAt_aligned {I : Impl} (hI : I.tagAlign = 8) {a : DecArgs} {u : Ptr} {e : Env} (he : e.strict = true) {s s' : St} {r : Int}
    (h : Runs (I.decryptAt u a) e s r s') : (e.base u.blk + u.off) % 8 = 0 := by
  unfold Impl.decryptAt at h
  iterate 3 obtain ⟨_, _, _, h⟩ := runs_bind_inv h
  obtain ⟨_, _, h, _⟩ := runs_bind_inv h
  rw [hI] at h
  exact storeTag8_inv h he

theorem stp_decryptAt_aligned {D : Opt.StpPrims} {a : DecArgs} {u v : Ptr} {e : Env} (he : e.strict = true) {s s' : St} {r : Int}
    (h : Runs (Opt.Stp.decryptAt D u v a) e s r s') : (e.base u.blk + u.off) % 8 = 0 := by
  unfold Opt.Stp.decryptAt at h
  iterate 5 obtain ⟨_, _, _, h⟩ := runs_bind_inv h
  obtain ⟨_, _, h, _⟩ := runs_bind_inv h
  unfold Opt.Stp.pvpAt at h
  obtain ⟨_, _, h, _⟩ := runs_bind_inv h
  unfold Opt.Stp.pvpHalfAt at h
  obtain ⟨_, _, h, _⟩ := runs_bind_inv h
  exact load64_inv h he

/-- **C51**, the exception: on a platform that does not tolerate misaligned accesses, every decryption by these implementations
is undefined if the compiler has placed the array at an address that is not a multiple of 8. -/
theorem C51_misaligned (t : Target) (ht : t.localAlign = 8) (e : Env) (he : e.strict = true) (s : St) (a : DecArgs) (u v : Ptr)
    (hu : (e.base u.blk + u.off) % 8 ≠ 0) : IsUB (t.decryptAt u v a) e s := by
  rcases runs_or_ub (t.decryptAt u v a) e s with ⟨r, s', h⟩ | h
  · refine absurd ?_ hu
    cases t with
    | a128aOpt32Stp => exact stp_decryptAt_aligned he h
    | a128aBi32Stp => exact stp_decryptAt_aligned he h
    | a128aBi32Armv6mStp => exact stp_decryptAt_aligned he h
    | a128aAvx512 d => exact decryptAt_aligned (I := A128.Avx.impl d) rfl he h
    | a128Opt64 d => exact decryptAt_aligned (I := A128.Opt64.impl _) rfl he h
    | a128Opt32 => exact decryptAt_aligned (I := A128.Opt32.impl _) rfl he h
    | a128Opt32Armv67m => exact decryptAt_aligned (I := A128.Opt32.impl _) rfl he h
    | _ => exact absurd ht (by simp [Target.localAlign])
  · exact h

/-- A strict platform, all of whose objects can be accessed; object 9 is at an odd address, the others are aligned. -/
def frameEnv : Env := ⟨fun _ _ => true, fun _ _ => true, fun b => if b = 9 then 1 else 0, true⟩

theorem frame_valid : ValidDec frameEnv Sample.dec where
  k := fun _ _ => rfl
  npub := fun _ _ => rfl
  ad := fun _ _ => rfl
  c := fun _ _ => rfl
  mlen := fun _ _ => ⟨rfl, rfl⟩
  adlen_lt := by decide
  clen_lt := by decide
  clen_ge := by decide
  mlen_c := by decide
  mlen_ad := by decide
  mlen_npub := by decide
  mlen_k := by decide
  m := fun _ _ => ⟨rfl, rfl⟩
  m_c := by decide
  mlen_m := by decide

theorem frame_limits (t : Target) (ht : t.limits.al ≠ 0) : t.limits.Dec frameEnv Sample.dec := by
  have h20 := (Sample.limits t).1
  have al : ∀ b n, b ≠ 9 → Aligned frameEnv t.limits.al ⟨b, 0⟩ n := fun b n hb =>
    .inr (.inr ⟨ht, by simp [frameEnv, hb]⟩)
  exact
    { k := al _ _ (by decide), npub := al _ _ (by decide), ad := al _ _ (by decide), c := al _ _ (by decide), m := al _ _ (by decide)
      adlen_lt := h20, clen_lt := Nat.lt_trans (by decide) h20, over := fun _ _ => rfl }

theorem frame_local (b o : Nat) (hb : 9 ≤ b) : LocalArray frameEnv Sample.dec ⟨b, o⟩ where
  wr := fun _ _ => ⟨rfl, rfl⟩
  k := .inr (.inr (.inl (by simp [Sample.dec]; omega)))
  npub := .inr (.inr (.inl (by simp [Sample.dec]; omega)))
  ad := .inr (.inr (.inl (by simp [Sample.dec]; omega)))
  c := .inr (.inr (.inl (by simp [Sample.dec]; omega)))
  m := .inr (.inr (.inl (by simp [Sample.dec]; omega)))
  mlen := .inr (.inr (.inl (by simp [Sample.dec]; omega)))

/-- **C51 is false** of these implementations: with all buffers of the caller aligned. -/
theorem C51_false (t : Target) (ht : t.localAlign = 8) : ¬ AnyPlacement t := by
  intro h
  have hal : t.limits.al ≠ 0 := by
    cases t <;> first | exact Nat.succ_ne_zero _ | exact absurd ht (by simp [Target.localAlign])
  obtain ⟨r, s', tr, hr⟩ := h frameEnv Sample.st Sample.dec ⟨9, 0⟩ ⟨10, 0⟩ frame_valid (frame_limits t hal) (frame_local _ _ (by decide))
    (frame_local _ _ (by decide)) (by decide)
  obtain ⟨u, hub⟩ := C51_misaligned t ht frameEnv rfl Sample.st Sample.dec ⟨9, 0⟩ ⟨10, 0⟩ (by decide)
  rw [hr] at hub
  exact nomatch hub

/-- Of the other implementations it is true. -/
theorem C51_iff (t : Target) : AnyPlacement t ↔ t.localAlign ≠ 8 := by
  constructor
  · exact fun h ht => C51_false t ht h
  · intro ht e s a u v V L U U' huv
    have al : ∀ p, Aligned e t.localAlign p 16 := by
      intro p
      by_cases h1 : t.localAlign = 1
      · rw [h1]; exact aligned_one ..
      · have h0 : t.limits.al = 0 := by
          cases t <;> first | rfl | exact absurd rfl h1 | exact absurd rfl ht
        have := L.k
        rw [h0] at this
        rcases this with h | h | ⟨h, _⟩
        · exact absurd h (by decide)
        · exact Aligned.tolerant h ..
        · exact absurd rfl h
    obtain ⟨r, _, s2, _, h2, _⟩ := C51_decrypt_partial t e s a u v V L U U' huv (al u) (al v)
    exact ⟨r, s2, h2⟩

/-- The hypotheses of the theorems can be met, with the local arrays aligned and misaligned. -/
example (t : Target) (ht : t.limits.al ≠ 0) : ValidDec frameEnv Sample.dec ∧ t.limits.Dec frameEnv Sample.dec ∧
    LocalArray frameEnv Sample.dec ⟨10, 0⟩ ∧ LocalArray frameEnv Sample.dec ⟨10, 16⟩ ∧ Disjoint ⟨10, 0⟩ 16 ⟨10, 16⟩ 16 ∧
    Aligned frameEnv 8 ⟨10, 0⟩ 16 ∧ ¬ Aligned frameEnv 8 ⟨9, 0⟩ 16 :=
  ⟨frame_valid, frame_limits t ht, frame_local _ _ (by decide), frame_local _ _ (by decide), by decide, by decide, by decide⟩
example : (Target.a128Opt64 .lp64).localAlign = 8 ∧ (Target.a128aBi32Stp).localAlign = 8 := ⟨rfl, rfl⟩

end Props
