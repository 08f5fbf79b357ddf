import Verif.Proof.Calls
import Verif.Proof.Llp64
import Verif.Proof.Reads
import Verif.Props.Sample
/-!
# Alignment, over-reads, lengths, the fused loop (C28, C09, C32, C33)
-/

namespace Props
open C Model Spec

/-! ## C28 -/

/-- **C28**, the property of one implementation: whatever the addresses of the buffers are, on every platform (`e` is
arbitrary, in particular `e.base`, the addresses of the objects, and `e.strict`), an encryption ends normally. -/
def AnyAlignment (t : Target) : Prop :=
  ∀ (e : Env) (s : St) (a : EncArgs), ValidEnc e a → a.adlen < t.limits.maxLen → a.mlen < t.limits.maxLen →
    Readable e a.ad (t.limits.ext a.adlen) → ∃ s', Runs (t.aead.encrypt a) e s 0 s'

/-- The implementations that access the buffers byte by byte. -/
def byteWise : Target → Bool
  | .ref _ | .x _ => true
  | _ => false

theorem byteWise_limits {t : Target} (ht : byteWise t = true) : t.limits = .byBytes := by
  cases t <;> first | rfl | exact Bool.noConfusion ht

theorem byteWise_conforming {t : Target} (ht : byteWise t = true) : t.conforming = true := by
  cases t <;> first | rfl | exact Bool.noConfusion ht

/-- **C28** The reference implementations (and the generic ones in isapxv20) work for all alignments on every platform:
encryption stores the ciphertext and tag of the specification, ... -/
theorem C28_encrypt_partial (t : Target) (ht : byteWise t = true) (e : Env) (s : St) (a : EncArgs) (V : ValidEnc e a) :
    ∃ s', Runs (t.aead.encrypt a) e s 0 s' ∧ bytesAt s' a.c (a.mlen + 16) = t.set.spec.encrypt (bytesAt s a.k 16)
      (bytesAt s a.npub 16) (bytesAt s a.ad a.adlen) (bytesAt s a.m a.mlen) := by
  have L : t.limits.Enc e a := byteWise_limits ht ▸ Limits.enc_byBytes V
  obtain ⟨s', h, _⟩ := t.encryptOK e s a V L
  refine ⟨s', h, ?_⟩
  rw [enc_c V L h, Target.out, t.spec_eq (byteWise_conforming ht)]

/-- ... and decryption returns 0 and the plaintext, or -1, according to the tag. -/
theorem C28_decrypt_partial (t : Target) (ht : byteWise t = true) (e : Env) (s : St) (d : DecArgs) (V : ValidDec e d) :
    ∃ r s', Runs (t.aead.decrypt d) e s r s' ∧
      ((bytesAt s (d.c + (d.clen - 16)) 16 = t.set.spec.mac (bytesAt s d.k 16) (bytesAt s d.npub 16) (bytesAt s d.ad d.adlen)
          (bytesAt s d.c (d.clen - 16)) ∧ r = 0 ∧
        bytesAt s' d.m (d.clen - 16) = t.set.spec.enc (bytesAt s d.k 16) (bytesAt s d.npub 16) (bytesAt s d.c (d.clen - 16))) ∨
       (bytesAt s (d.c + (d.clen - 16)) 16 ≠ t.set.spec.mac (bytesAt s d.k 16) (bytesAt s d.npub 16) (bytesAt s d.ad d.adlen)
          (bytesAt s d.c (d.clen - 16)) ∧ r = -1)) := by
  have L : t.limits.Dec e d := byteWise_limits ht ▸ Limits.dec_byBytes V.toValidDecIn
  obtain ⟨r, s', h⟩ := dec_exists V L s
  have hacc : t.accepts s d ↔ bytesAt s (d.c + (d.clen - 16)) 16 = t.set.spec.mac (bytesAt s d.k 16) (bytesAt s d.npub 16)
      (bytesAt s d.ad d.adlen) (bytesAt s d.c (d.clen - 16)) := by
    have hs : t.stp = false := by cases t <;> first | rfl | exact Bool.noConfusion ht
    rw [Target.accepts, Target.acc, hs, t.spec_eq (byteWise_conforming ht)]
    rfl
  refine ⟨r, s', h, ?_⟩
  rcases dec_run V L h with ⟨h1, h2, h3⟩ | ⟨h1, h2, _⟩
  · refine .inl ⟨hacc.1 h1, h2, ?_⟩
    rw [(dec_m V h3).1, Target.plain, t.spec_eq (byteWise_conforming ht)]
  · exact .inr ⟨fun h => h1 (hacc.2 h), h2⟩

/-- **C28** All implementations work for all alignments on a platform that tolerates misaligned accesses. -/
theorem C28_tolerant_partial (t : Target) (hc : t.conforming = true) (e : Env) (s : St) (a : EncArgs) (V : ValidEnc e a)
    (he : e.strict = false) (h1 : a.adlen < t.limits.maxLen) (h2 : a.mlen < t.limits.maxLen)
    (h3 : Readable e a.ad (t.limits.ext a.adlen)) :
    ∃ s', Runs (t.aead.encrypt a) e s 0 s' ∧ bytesAt s' a.c (a.mlen + 16) = t.set.spec.encrypt (bytesAt s a.k 16)
      (bytesAt s a.npub 16) (bytesAt s a.ad a.adlen) (bytesAt s a.m a.mlen) := by
  have L : t.limits.Enc e a := Limits.enc_tolerant he h1 h2 h3
  obtain ⟨s', h, _⟩ := t.encryptOK e s a V L
  refine ⟨s', h, ?_⟩
  rw [enc_c V L h, Target.out, t.spec_eq hc]

/-- A call in which all objects have odd addresses, on a platform that does not tolerate misaligned accesses. -/
def oddEnv : Env := { Sample.env with base := fun _ => 1, strict := true }

/-- The empty message, 20 bytes of associated data. -/
def oddEnc : EncArgs := { Sample.enc with mlen := 0 }

theorem oddEnc_valid : ValidEnc oddEnv oddEnc where
  k := Sample.readable _ _ (by decide)
  npub := Sample.readable _ _ (by decide)
  ad := Sample.readable _ _ (by decide)
  m := Sample.readable _ _ (by decide)
  c := Sample.writable _ _ (by decide) (by decide)
  clen := Sample.writable _ _ (by decide) (by decide)
  adlen_lt := by decide
  mlen_lt := by decide
  c_m := by decide
  c_ad := by decide
  c_npub := by decide
  c_k := by decide
  clen_c := by decide
  clen_m := by decide
  clen_ad := by decide
  clen_npub := by decide
  clen_k := by decide

/-- The run ends because of a misaligned access. -/
def isMisaligned {α : Type} : Out α → Bool
  | .ub (.misaligned _ _) => true
  | _ => false

set_option maxRecDepth 100000 in
theorem odd_misaligned (t : Target) (ht : byteWise t = false) :
    isMisaligned (run (t.aead.encrypt oddEnc) oddEnv Sample.st) = true := by
  cases t
  case ref p => exact Bool.noConfusion ht
  case x p => exact Bool.noConfusion ht
  case k128aAvx512 j => rfl
  case a128aAvx512 d => cases d <;> decide +kernel
  case a128Opt64 d => cases d <;> decide +kernel
  all_goals decide +kernel

/-- **C28 is false** of every other implementation: with misaligned buffers, a call that is otherwise valid accesses memory
through a misaligned pointer, which is undefined behaviour. -/
theorem C28_false (t : Target) (ht : byteWise t = false) : ¬ AnyAlignment t := by
  intro h
  have hl : t.limits.ext 20 ≤ 26 := (Sample.limits t).2
  have h20 := (Sample.limits t).1
  obtain ⟨s', tr, hr⟩ := h oddEnv Sample.st oddEnc oddEnc_valid h20 (Nat.lt_trans (by decide) h20) (Sample.readable _ _ hl)
  have := odd_misaligned t ht
  rw [hr] at this
  exact Bool.noConfusion this

/-- Of the reference implementations it is true. -/
theorem C28_iff (t : Target) : AnyAlignment t ↔ byteWise t = true := by
  constructor
  · intro h
    by_cases ht : byteWise t = true
    · exact ht
    · exact absurd h (C28_false t (by simpa using ht))
  · intro ht e s a V _ _ _
    obtain ⟨s', h, _⟩ := C28_encrypt_partial t ht e s a V
    exact ⟨s', h⟩

theorem storeTag8_inv {e : Env} {s s' : St} {p : Ptr} {tag : List Byte} {r : Unit} (h : Runs (storeTag 8 p tag) e s r s')
    (he : e.strict = true) : (e.base p.blk + p.off) % 8 = 0 := by
  unfold storeTag at h
  rw [show 16 / 8 = 1 + 1 from rfl, forN] at h
  obtain ⟨_, _, _, h⟩ := runs_bind_inv h
  obtain ⟨_, _, ⟨tr, h⟩, _⟩ := runs_bind_inv h
  simp only [store, run] at h
  split at h
  · split at h
    · rename_i ha
      simpa [alignedOk, he] using ha
    · simp at h
  · simp at h

/-- The implementations that store the tag as two 64-bit words: opt_64, opt_32, opt_32_armv6m/armv7m of isapa128v20 and
avx_512 of isapa128av20. -/
def tagByWords : Target → Bool
  | .a128Opt64 _ | .a128Opt32 | .a128Opt32Armv67m | .a128aAvx512 _ => true
  | _ => false

theorem encrypt_tag_aligned {I : Impl} (hI : I.tagAlign = 8) {a : EncArgs} {e : Env} (he : e.strict = true) {s s' : St} {r : Int}
    (h : Runs (I.aead.encrypt a) e s r s') : (e.base a.c.blk + a.c.off + a.mlen) % 8 = 0 := by
  have h : Runs (Model.encrypt I a.c a.clen a.m a.mlen a.ad a.adlen a.nsec a.npub a.k) e s r s' := h
  unfold Model.encrypt at h
  iterate 3 obtain ⟨_, _, _, h⟩ := runs_bind_inv h
  obtain ⟨_, _, h, _⟩ := runs_bind_inv h
  rw [hI] at h
  have := storeTag8_inv h he
  rw [Nat.add_assoc]
  exact this

/-- **C28**, a special case of the failure that concerns buffers as `malloc` returns them: on a platform that does not tolerate
misaligned accesses, these implementations are undefined for every message whose length is not a multiple of 8 (if `c` is
8-aligned), because they store the tag through a 64-bit pointer to `c + mlen`. -/
theorem C28_false_tag (t : Target) (ht : tagByWords t = true) (e : Env) (he : e.strict = true) (a : EncArgs)
    (hc : (e.base a.c.blk + a.c.off) % 8 = 0) (hm : a.mlen % 8 ≠ 0) (s : St) : IsUB (t.aead.encrypt a) e s := by
  rcases runs_or_ub (t.aead.encrypt a) e s with ⟨r, s', h⟩ | h
  · refine absurd ?_ hm
    have : (e.base a.c.blk + a.c.off + a.mlen) % 8 = 0 := by
      cases t with
      | a128Opt64 _ => exact encrypt_tag_aligned (I := A128.Opt64.impl _) rfl he h
      | a128Opt32 => exact encrypt_tag_aligned (I := A128.Opt32.impl _) rfl he h
      | a128Opt32Armv67m => exact encrypt_tag_aligned (I := A128.Opt32.impl _) rfl he h
      | a128aAvx512 d =>
        have h : Runs (A128.Avx.encrypt d a.c a.clen a.m a.mlen a.ad a.adlen a.nsec a.npub a.k) e s r s' := h
        unfold A128.Avx.encrypt at h
        iterate 2 obtain ⟨_, _, _, h⟩ := runs_bind_inv h
        obtain ⟨_, _, h, _⟩ := runs_bind_inv h
        have := storeTag8_inv h he
        rw [Nat.add_assoc]
        exact this
      | _ => exact Bool.noConfusion ht
    omega
  · exact h

/-- The hypotheses of the theorems can be met. -/
example : byteWise (.ref .k128) = true ∧ ValidEnc oddEnv oddEnc ∧ oddEnv.strict = true ∧ oddEnv.base 3 = 1 :=
  ⟨rfl, oddEnc_valid, rfl, rfl⟩
example : tagByWords (.a128Opt64 .lp64) = true ∧ Sample.enc.mlen % 8 ≠ 0 := ⟨rfl, by decide⟩

/-! ## C09, the exception -/

/-- The objects of a call with `n` bytes of associated data, `n ≤ 18`, of exactly the documented sizes, on a tolerant platform. -/
def exactEnv : Env where
  rd b o := decide (o < if b = 3 then 18 else Sample.size b)
  wr b o := Sample.env.wr b o
  base _ := 0
  strict := false

/-- The empty message with 18 bytes of associated data. -/
def exactEnc : EncArgs := { Sample.enc with mlen := 0, adlen := 18 }

theorem exactEnc_valid : ValidEnc exactEnv exactEnc where
  k := by unfold Readable; decide
  npub := by unfold Readable; decide
  ad := by unfold Readable; decide
  m := by unfold Readable; decide
  c := by unfold Writable; decide
  clen := by unfold Writable; decide
  adlen_lt := by decide
  mlen_lt := by decide
  c_m := by decide
  c_ad := by decide
  c_npub := by decide
  c_k := by decide
  clen_c := by decide
  clen_m := by decide
  clen_ad := by decide
  clen_npub := by decide
  clen_k := by decide

theorem ldBlk_reads24 {p : Ptr} {e : Env} {s : St} {a : List Byte} {s' : St} (h : Runs (K128.Opt64.ldBlk p) e s a s') :
    Readable e p 24 := by
  unfold K128.Opt64.ldBlk at h
  obtain ⟨_, _, h1, h⟩ := runs_bind_inv h
  obtain ⟨_, _, h2, h⟩ := runs_bind_inv h
  obtain ⟨_, _, h3, _⟩ := runs_bind_inv h
  refine readable_blocks (r := 8) (fun j hj => ?_) (fun i hi => absurd hi (Nat.not_lt_zero i))
  match j, hj with
  | 0, _ => exact (runs_load_inv h1).1
  | 1, _ => exact (runs_load_inv h2).1
  | 2, _ => exact (runs_load_inv h3).1

theorem absorbMac_over {D : K128.Prims} (hD : D.ldBlk = K128.Opt64.ldBlk) {x : List Byte} {src : Ptr} {len : Nat} {e : Env}
    {s s' : St} {a : List Byte} (h : Runs (K128.absorbMac D x src len) e s a s') (j : Nat) (hj : j < len / 18) :
    Readable e (src + 18 * j) 24 := by
  unfold K128.absorbMac at h
  rw [whileRem_eq] at h
  obtain ⟨hb1, hb2⟩ := remBlocks_le (r := 18) (by decide) len
  generalize remBlocks 18 len = n at *
  obtain ⟨_, _, h1, h2⟩ := runs_bind_inv h
  have k1 : ∀ j, j < n → Readable e (src + 18 * j) 24 := by
    intro j hj
    have := runs_forN_each (P := fun i => Readable e (src + 18 * i) 24) ?_ _ _ _ h1 j hj
    · rwa [Nat.zero_add] at this
    · intro i x s a s' h
      obtain ⟨_, _, h, _⟩ := runs_bind_inv h
      exact ldBlk_reads24 (hD ▸ h)
  rw [Nat.zero_add] at h2
  rcases runs_if_inv h2 with ⟨h0, h⟩ | ⟨h0, h⟩
  · obtain ⟨_, _, h, _⟩ := runs_bind_inv h
    have k2 := ldBlk_reads24 (hD ▸ h)
    rw [decide_eq_true_iff] at h0
    by_cases hjn : j < n
    · exact k1 j hjn
    · rwa [show j = n by omega]
  · rw [decide_eq_false_iff_not] at h0
    exact k1 j (by omega)

/-- **C09**, the exception: opt_64 of isapk128av20 and isapk128v20 reads 24 bytes for every full block of 18 bytes of associated
data: unless the buffer has `18 * (adlen / 18) + 6` readable bytes, the call is undefined. -/
theorem C09_overread (t : Target) (ht : t = .k128aOpt64 ∨ t = .k128Opt64) (e : Env) (s : St) (a : EncArgs) (h18 : 18 ≤ a.adlen)
    (hr : ¬ Readable e a.ad (18 * (a.adlen / 18) + 6)) : IsUB (t.aead.encrypt a) e s := by
  rcases runs_or_ub (t.aead.encrypt a) e s with ⟨r, s', h⟩ | h
  · refine absurd ?_ hr
    have key : ∀ D : K128.Prims, D.ldBlk = K128.Opt64.ldBlk → Runs ((K128.impl D).aead.encrypt a) e s r s' →
        Readable e a.ad (18 * (a.adlen / 18) + 6) := by
      intro D hD h
      have h : Runs (Model.encrypt (K128.impl D) a.c a.clen a.m a.mlen a.ad a.adlen a.nsec a.npub a.k) e s r s' := h
      unfold Model.encrypt at h
      iterate 2 obtain ⟨_, _, _, h⟩ := runs_bind_inv h
      obtain ⟨_, _, h, _⟩ := runs_bind_inv h
      have h : Runs (K128.isapMac D a.k a.npub a.ad a.adlen a.c a.mlen) e _ _ _ := h
      unfold K128.isapMac at h
      obtain ⟨_, _, _, h⟩ := runs_bind_inv h
      obtain ⟨_, _, h1, h⟩ := runs_bind_inv h
      have := absorbMac_over hD h1
      refine readable_blocks (r := 18) (fun j hj => (this j (by omega)).mono (by decide)) ?_
      intro i hi
      have := this (a.adlen / 18 - 1) (by omega) (18 + i) (by omega)
      have e1 : (a.ad + 18 * (a.adlen / 18 - 1)).off + (18 + i) = (a.ad + 18 * ((18 * (a.adlen / 18) + 6) / 18)).off + i := by
        show a.ad.off + _ + _ = a.ad.off + _ + _
        omega
      rwa [e1] at this
    rcases ht with rfl | rfl
    · exact key _ rfl h
    · exact key _ rfl h
  · exact h

/-- **C09 is false** of these two implementations: buffers of exactly the documented sizes do not suffice. -/
theorem C09_false (t : Target) (ht : t = .k128aOpt64 ∨ t = .k128Opt64) : ¬ ∀ (e : Env) (s : St) (a : EncArgs),
    ValidEnc e a → e.strict = false → ∃ s', Runs (t.aead.encrypt a) e s 0 s' := by
  intro h
  obtain ⟨s', h⟩ := h exactEnv Sample.st exactEnc exactEnc_valid rfl
  refine h.not_ub (C09_overread t ht exactEnv Sample.st exactEnc (by decide) ?_)
  unfold Readable
  decide

/-! ## C32 -/

/-- The length arguments are taken modulo this number. -/
def lenMod : Target → Nat
  | .k128aOpt32Armv6m | .k128aOpt32Armv7m | .k128Opt32Armv6m | .k128Opt32Armv7m => 2 ^ 32
  | .a128Opt64 .llp64 | .a128aAvx512 .llp64 => 2 ^ 32
  | _ => 2 ^ 64

theorem mod_ne : (2 ^ 64 : Nat) = 2 ^ 32 → False := by decide

theorem decReads_lenMod (t : Target) : DecReads (lenMod t) t.aead := by
  cases t
  case a128aAvx512 d => cases d <;> exact decReads_common (I := A128.Avx.impl _) (A128.Opt64.macReads _ (Nat.dvd_refl _))
  case a128Opt64 d => cases d <;> exact Target.decReads _
  all_goals exact Target.decReads _

/-- **C32**, part 1: encryption yields ciphertext and tag of the whole message and the whole associated data, for all lengths
below `2^64 - 16`.  (All implementations with 64-bit lengths; avx_512 of isapa128av20 is covered up to `2^63`.) -/
theorem C32_encrypt_partial (t : Target) (hc : t.conforming = true) (hl : t.limits.maxLen = 2 ^ 64) (e : Env)
    (he : e.strict = false) (s : St) (a : EncArgs) (V : ValidEnc e a) (h3 : Readable e a.ad (t.limits.ext a.adlen)) :
    ∃ s', Runs (t.aead.encrypt a) e s 0 s' ∧ bytesAt s' a.c (a.mlen + 16) = t.set.spec.encrypt (bytesAt s a.k 16)
      (bytesAt s a.npub 16) (bytesAt s a.ad a.adlen) (bytesAt s a.m a.mlen) :=
  C28_tolerant_partial t hc e s a V he (hl ▸ V.adlen_lt) (hl ▸ Nat.lt_of_le_of_lt (Nat.le_add_right _ _) V.mlen_lt) h3

/-- **C32**, part 2: decryption reads every byte of the associated data and of the ciphertext before it ends.  (All
implementations with 64-bit lengths.) -/
theorem C32_decrypt_reads_partial (t : Target) (hl : lenMod t = 2 ^ 64) (e : Env) (s s' : St) (d : DecArgs) (r : Int)
    (h1 : d.adlen < 2 ^ 64) (h2 : 16 ≤ d.clen) (h3 : d.clen < 2 ^ 64) (h : Runs (t.aead.decrypt d) e s r s') :
    Readable e d.ad d.adlen ∧ Readable e d.c (d.clen - 16) := by
  obtain ⟨hc, ha⟩ := decReads_lenMod t d e s r s' h
  rw [hl, Nat.mod_eq_of_lt h1] at ha
  rw [hl, Nat.mod_mod] at hc
  exact ⟨ha, by rwa [show (d.clen + (2 ^ 64 - 16)) % 2 ^ 64 = d.clen - 16 by omega] at hc⟩

theorem arm_encrypt_trunc (D : K128.Arm.Prims) (a : EncArgs) :
    (K128.Arm.impl D).aead.encrypt { a with adlen := a.adlen % 2 ^ 32 } = (K128.Arm.impl D).aead.encrypt a := by
  simp only [Impl.aead, Model.encrypt, K128.Arm.impl, K128.Arm.isapMac, Nat.mod_mod]

theorem arm_decrypt_trunc (D : K128.Arm.Prims) (a : DecArgs) :
    (K128.Arm.impl D).aead.decrypt { a with adlen := a.adlen % 2 ^ 32 } = (K128.Arm.impl D).aead.decrypt a := by
  simp only [Impl.aead, Model.decrypt, K128.Arm.impl, K128.Arm.isapMac, Nat.mod_mod]

theorem opt64_encrypt_trunc (D : A128.Opt64.Cfg) (hd : D.dm = .llp64) (a : EncArgs) :
    (A128.Opt64.impl D).aead.encrypt { a with adlen := a.adlen % 2 ^ 32 } = (A128.Opt64.impl D).aead.encrypt a := by
  have h : D.dm.ulong = 2 ^ 32 := by rw [hd]; rfl
  simp only [Impl.aead, Model.encrypt, A128.Opt64.impl, A128.Opt64.isapMac, A128.Opt64.macAbsorb, A128.Opt64.absorbMac,
    A128.Opt64.absorbLanes, h, Nat.mod_mod]

theorem opt64_decrypt_trunc (D : A128.Opt64.Cfg) (hd : D.dm = .llp64) (a : DecArgs) :
    (A128.Opt64.impl D).aead.decrypt { a with adlen := a.adlen % 2 ^ 32 } = (A128.Opt64.impl D).aead.decrypt a := by
  have h : D.dm.ulong = 2 ^ 32 := by rw [hd]; rfl
  simp only [Impl.aead, Model.decrypt, A128.Opt64.impl, A128.Opt64.isapMac, A128.Opt64.macAbsorb, A128.Opt64.absorbMac,
    A128.Opt64.absorbLanes, h, Nat.mod_mod]

theorem avx_encrypt_trunc (a : EncArgs) :
    (A128.Avx.aead .llp64).encrypt { a with adlen := a.adlen % 2 ^ 32 } = (A128.Avx.aead .llp64).encrypt a := by
  have h : DataModel.llp64.ulong = 2 ^ 32 := rfl
  simp only [A128.Avx.aead, A128.Avx.encrypt, A128.Avx.isapMacEnc, A128.Avx.start, A128.Opt64.absorbLanes, h, Nat.mod_mod]

/-- **C32**: the ARM implementations of isapk128av20 and isapk128v20, and with a 32-bit `unsigned long` opt_64 of isapa128v20 and
avx_512 of isapa128av20, use the length of the associated data modulo `2^32` only: the call is the same program as with the
truncated length. -/
theorem C32_truncates (t : Target) (ht : lenMod t = 2 ^ 32) (a : EncArgs) (d : DecArgs) :
    t.aead.encrypt { a with adlen := a.adlen % 2 ^ 32 } = t.aead.encrypt a ∧
    t.aead.decrypt { d with adlen := d.adlen % 2 ^ 32 } = t.aead.decrypt d := by
  cases t
  case k128aOpt32Armv6m => exact ⟨arm_encrypt_trunc _ a, arm_decrypt_trunc _ d⟩
  case k128aOpt32Armv7m => exact ⟨arm_encrypt_trunc _ a, arm_decrypt_trunc _ d⟩
  case k128Opt32Armv6m => exact ⟨arm_encrypt_trunc _ a, arm_decrypt_trunc _ d⟩
  case k128Opt32Armv7m => exact ⟨arm_encrypt_trunc _ a, arm_decrypt_trunc _ d⟩
  case a128Opt64 D =>
    cases D
    · exact (mod_ne ht).elim
    · exact ⟨opt64_encrypt_trunc (A128.Opt64.cfg .llp64) rfl a, opt64_decrypt_trunc (A128.Opt64.cfg .llp64) rfl d⟩
  case a128aAvx512 D =>
    cases D
    · exact (mod_ne ht).elim
    · exact ⟨avx_encrypt_trunc a, opt64_decrypt_trunc (A128.Avx.cfg .llp64) rfl d⟩
  all_goals exact (mod_ne ht).elim

/-- **C32 is false** of these implementations: with `2^32` bytes of associated data, encryption yields the result for no
associated data at all, ... -/
theorem C32_false_ad (t : Target) (ht : lenMod t = 2 ^ 32) (e : Env) (he : e.strict = false) (s : St) (a : EncArgs)
    (V : ValidEnc e a) (ha : a.adlen = 2 ^ 32) (hm : a.mlen < 2 ^ 32) :
    ∃ s', Runs (t.aead.encrypt a) e s 0 s' ∧
      bytesAt s' a.c (a.mlen + 16) = t.set.spec.encrypt (bytesAt s a.k 16) (bytesAt s a.npub 16) [] (bytesAt s a.m a.mlen) := by
  have hc : t.conforming = true := by
    cases t <;> first | rfl | exact (mod_ne ht).elim
  have hL : t.limits.maxLen = 2 ^ 32 ∧ t.limits.ext 0 = 0 := by
    cases t
    case a128Opt64 D => cases D <;> first | exact ⟨rfl, rfl⟩ | exact (mod_ne ht).elim
    case a128aAvx512 D => cases D <;> first | exact ⟨rfl, rfl⟩ | exact (mod_ne ht).elim
    all_goals first | exact ⟨rfl, rfl⟩ | exact (mod_ne ht).elim
  rw [← (C32_truncates t ht a Sample.dec).1, ha]
  have V' : ValidEnc e { a with adlen := 2 ^ 32 % 2 ^ 32 } :=
    { V with
      ad := fun i hi => absurd hi (Nat.not_lt_zero i)
      adlen_lt := (by decide : 2 ^ 32 % 2 ^ 32 < 2 ^ 64)
      c_ad := .inr (.inl rfl)
      clen_ad := .inr (.inl rfl) }
  exact C28_tolerant_partial t hc e s { a with adlen := 2 ^ 32 % 2 ^ 32 } V' he (by rw [hL.1]; exact (by decide : 2 ^ 32 % 2 ^ 32 < 2 ^ 32))
    (by rw [hL.1]; exact hm) (fun i hi => absurd hi (by
      have : t.limits.ext (2 ^ 32 % 2 ^ 32) = 0 := hL.2
      show ¬ i < t.limits.ext (2 ^ 32 % 2 ^ 32)
      omega))

/-- The programs `isap_mac` and `isap_enc` of an implementation, if its `crypto_aead_decrypt` is the common one. -/
theorem arm_accepts {D : K128.Arm.Prims} {P : Params} (O : K128.Arm.PrimsOK D P) (e : Env) (he : e.strict = false) (s : St)
    (d : DecArgs) (V : ValidDec e d)
    (htag : bytesAt s (d.c + (d.clen - 16)) 16 = P.mac (bytesAt s d.k 16) (bytesAt s d.npub 16) (bytesAt s d.ad (d.adlen % 2 ^ 32))
      (bytesAt s d.c ((d.clen - 16) % 2 ^ 32))) : ∃ s', Runs ((K128.Arm.impl D).aead.decrypt d) e s 0 s' := by
  have hA : d.adlen % 2 ^ 32 < 2 ^ 32 := Nat.mod_lt _ (by decide)
  have hC : (d.clen - 16) % 2 ^ 32 < 2 ^ 32 := Nat.mod_lt _ (by decide)
  have hA' := Nat.mod_le d.adlen (2 ^ 32)
  have hC' := Nat.mod_le (d.clen - 16) (2 ^ 32)
  have hm := V.mlen_ad.mono (Nat.le_refl _) hA'
  have rc : Readable e d.c ((d.clen - 16) % 2 ^ 32) := V.c.mono (by omega)
  refine decrypt_accepts V s (fun s1 b1 => ?_) (fun s1 => ?_)
  · have h := K128.Arm.macOK O e s1 d.k d.npub d.ad (d.adlen % 2 ^ 32) d.c ((d.clen - 16) % 2 ^ 32) (.tolerant he ..) (.tolerant he ..)
      (.tolerant he ..) (.tolerant he ..) hA hC V.k V.npub (V.ad.mono hA') rc (V.ad.mono hA') rc
    rw [b1 _ _ V.mlen_k, b1 _ _ V.mlen_npub, b1 _ _ hm, b1 _ _ (V.mlen_c.mono (Nat.le_refl _) (by omega)), ← htag] at h
    simpa only [K128.Arm.impl, K128.Arm.isapMac, Nat.mod_mod] using h
  · have h := K128.Arm.encOK O e s1 d.k d.npub d.c ((d.clen - 16) % 2 ^ 32) d.m (.tolerant he ..) (.tolerant he ..) (.tolerant he ..)
      (.tolerant he ..) hC V.k V.npub rc (V.m.mono (by omega)) (by
        have := V.m_c
        unfold OverlapOK at *
        omega)
    simp only [K128.Arm.isapEnc, Nat.mod_mod] at h
    exact ⟨_, _, h, trivial⟩

theorem opt64_accepts {D : A128.Opt64.Cfg} {P : Params} (O : A128.Opt64.CfgOK D Ascon.p P) (hd : D.dm = .llp64) (e : Env)
    (he : e.strict = false) (s : St) (d : DecArgs) (V : ValidDec e d)
    (htag : bytesAt s (d.c + (d.clen - 16)) 16 = P.mac (bytesAt s d.k 16) (bytesAt s d.npub 16) (bytesAt s d.ad (d.adlen % 2 ^ 32))
      (bytesAt s d.c ((d.clen - 16) % 2 ^ 32))) : ∃ s', Runs ((A128.Opt64.impl D).aead.decrypt d) e s 0 s' := by
  have hu : D.dm.ulong = 2 ^ 32 := by rw [hd]; rfl
  have hA : d.adlen % 2 ^ 32 < D.dm.ulong := by rw [hu]; exact Nat.mod_lt _ (by decide)
  have hC : (d.clen - 16) % 2 ^ 32 < D.dm.ulong := by rw [hu]; exact Nat.mod_lt _ (by decide)
  have hA' := Nat.mod_le d.adlen (2 ^ 32)
  have hC' := Nat.mod_le (d.clen - 16) (2 ^ 32)
  have hm := V.mlen_ad.mono (Nat.le_refl _) hA'
  have rc : Readable e d.c ((d.clen - 16) % 2 ^ 32) := V.c.mono (by omega)
  refine decrypt_accepts V s (fun s1 b1 => ?_) ?_
  · have h := A128.Opt64.macOK O e s1 d.k d.npub d.ad (d.adlen % 2 ^ 32) d.c ((d.clen - 16) % 2 ^ 32) (.tolerant he ..) (.tolerant he ..)
      (.tolerant he ..) (.tolerant he ..) hA hC V.k V.npub (V.ad.mono hA') rc (V.ad.mono hA') rc
    rw [b1 _ _ V.mlen_k, b1 _ _ V.mlen_npub, b1 _ _ hm, b1 _ _ (V.mlen_c.mono (Nat.le_refl _) (by omega)), ← htag] at h
    simpa only [A128.Opt64.impl, A128.Opt64.isapMac, A128.Opt64.macAbsorb, A128.Opt64.absorbMac, A128.Opt64.absorbLanes, hu,
      Nat.mod_mod] using h
  · refine A128.Opt64.ends_isapEnc he hd V.k V.npub (V.c.mono (by omega)) V.m (Nat.sub_le _ _) fun _ => ?_
    have := Nat.mod_le ((d.clen - 16) - (d.clen - 16) % 8) (2 ^ 32)
    omega

/-- ... and decryption accepts every ciphertext whose tag fits the first `adlen mod 2^32` bytes of the associated data and the
first `(clen - 16) mod 2^32` bytes of the body: `2^32` arbitrary bytes can be appended to either. -/
theorem C32_false_forgery (t : Target) (ht : lenMod t = 2 ^ 32) (e : Env) (he : e.strict = false) (s : St) (d : DecArgs)
    (V : ValidDec e d)
    (htag : bytesAt s (d.c + (d.clen - 16)) 16 = t.set.spec.mac (bytesAt s d.k 16) (bytesAt s d.npub 16)
      (bytesAt s d.ad (d.adlen % 2 ^ 32)) (bytesAt s d.c ((d.clen - 16) % 2 ^ 32))) : ∃ s', Runs (t.aead.decrypt d) e s 0 s' := by
  cases t
  case k128aOpt32Armv6m => exact arm_accepts K128.Arm.primsK128aV6_ok e he s d V htag
  case k128aOpt32Armv7m => exact arm_accepts K128.Arm.primsK128aV7_ok e he s d V htag
  case k128Opt32Armv6m => exact arm_accepts K128.Arm.primsK128V6_ok e he s d V htag
  case k128Opt32Armv7m => exact arm_accepts K128.Arm.primsK128V7_ok e he s d V htag
  case a128Opt64 D =>
    cases D
    · exact (mod_ne ht).elim
    · exact opt64_accepts (A128.Opt64.cfgOK .llp64) rfl e he s d V htag
  case a128aAvx512 D =>
    cases D
    · exact (mod_ne ht).elim
    · exact opt64_accepts (A128.Avx.cfgOK .llp64) rfl e he s d V htag
  all_goals exact (mod_ne ht).elim

/-- **C32 is false** of opt_64 of isapa128v20 where `unsigned long` has 32 bits: encryption of a message of more than `2^32` bytes
reports success, but leaves the last `mlen mod 8` bytes of the ciphertext body as they were. -/
theorem C32_false_llp64_opt64 (e : Env) (he : e.strict = false) (s : St) (a : EncArgs) (V : ValidEnc e a) (h1 : 2 ^ 32 < a.mlen) :
    ∃ s', Runs ((Target.a128Opt64 .llp64).aead.encrypt a) e s 0 s' ∧
      bytesAt s' (a.c + (a.mlen - a.mlen % 8)) (a.mlen % 8) = bytesAt s (a.c + (a.mlen - a.mlen % 8)) (a.mlen % 8) := by
  have hc1 : Writable (e.protect (a.c + (a.mlen - a.mlen % 8)) (a.mlen % 8)) a.c (a.mlen - a.mlen % 8) :=
    (V.c.mono (by omega)).protect (.inr (.inr (.inr (.inl (by rw [add_off]; omega)))))
  have hc2 : Writable (e.protect (a.c + (a.mlen - a.mlen % 8)) (a.mlen % 8)) (a.c + a.mlen) 16 :=
    (V.c.add (Nat.le_refl _)).protect (.inr (.inr (.inr (.inr (by simp only [add_off]; omega)))))
  have hcl : Writable (e.protect (a.c + (a.mlen - a.mlen % 8)) (a.mlen % 8)) a.clen 8 := V.clen.protect (by
    have := V.clen_c
    unfold Disjoint at *
    simp only [add_blk, add_off]
    omega)
  have key : Ends ((Target.a128Opt64 .llp64).aead.encrypt a) (e.protect (a.c + (a.mlen - a.mlen % 8)) (a.mlen % 8)) (· = 0) := by
    have he : (e.protect (a.c + (a.mlen - a.mlen % 8)) (a.mlen % 8)).strict = false := he
    refine (Ends.storeLen he hcl).bind fun _ _ => Ends.bind (P := fun _ => True) ?_ fun _ _ => ?_
    · refine Ends.ite (fun _ => ?_) (fun _ => .pure trivial)
      exact A128.Opt64.ends_isapEnc (D := A128.Opt64.cfg .llp64) he rfl V.k V.npub V.m hc1 (Nat.le_refl _) (by omega)
    · refine (A128.Opt64.ends_isapMac (D := A128.Opt64.cfg .llp64) he V.k V.npub V.ad (V.c.readable.mono (by omega))).bind fun t ht => ?_
      exact (ends_storeTag he hc2 ht).bind fun _ _ => .pure rfl
  obtain ⟨r, s', h, rfl, h2⟩ := key.keeps s
  exact ⟨s', h, h2⟩

/-- **C32 is false** of avx_512 of isapa128av20 where `unsigned long` has 32 bits: encryption of a message of more than `2^32`
bytes reports success, but leaves the ciphertext body as it was from byte `2^32` on. -/
theorem C32_false_llp64_avx512 (e : Env) (he : e.strict = false) (s : St) (a : EncArgs) (V : ValidEnc e a) (h1 : 2 ^ 32 < a.mlen)
    (h2 : a.mlen < 2 ^ 63) : ∃ s', Runs ((Target.a128aAvx512 .llp64).aead.encrypt a) e s 0 s' ∧
      bytesAt s' (a.c + 2 ^ 32) (a.mlen - 2 ^ 32) = bytesAt s (a.c + 2 ^ 32) (a.mlen - 2 ^ 32) := by
  have hc1 : Writable (e.protect (a.c + 2 ^ 32) (a.mlen - 2 ^ 32)) a.c (2 ^ 32) :=
    (V.c.mono (by omega)).protect (.inr (.inr (.inr (.inl (by rw [add_off]; omega)))))
  have hc2 : Writable (e.protect (a.c + 2 ^ 32) (a.mlen - 2 ^ 32)) (a.c + a.mlen) 16 :=
    (V.c.add (Nat.le_refl _)).protect (.inr (.inr (.inr (.inr (by simp only [add_off]; omega)))))
  have hcl : Writable (e.protect (a.c + 2 ^ 32) (a.mlen - 2 ^ 32)) a.clen 8 := V.clen.protect (by
    have := V.clen_c
    unfold Disjoint at *
    simp only [add_blk, add_off]
    omega)
  have key : Ends ((Target.a128aAvx512 .llp64).aead.encrypt a) (e.protect (a.c + 2 ^ 32) (a.mlen - 2 ^ 32)) (· = 0) := by
    have he : (e.protect (a.c + 2 ^ 32) (a.mlen - 2 ^ 32)).strict = false := he
    refine (Ends.storeLen he hcl).bind fun _ _ => ?_
    refine (A128.Avx.ends_isapMacEnc he V.k V.npub V.ad (V.m.mono (by omega)) hc1 h1 h2).bind fun t ht => ?_
    exact (ends_storeTag he hc2 ht).bind fun _ _ => .pure rfl
  obtain ⟨r, s', h, rfl, h2⟩ := key.keeps s
  exact ⟨s', h, h2⟩

/-- In particular these two implementations leave parts of a long message unencrypted when they work in place. -/
theorem C32_false_llp64_in_place (e : Env) (he : e.strict = false) (s : St) (a : EncArgs) (V : ValidEnc e a) (hin : a.c = a.m)
    (h1 : 2 ^ 32 < a.mlen) (h2 : a.mlen < 2 ^ 63) :
    (∃ s', Runs ((Target.a128Opt64 .llp64).aead.encrypt a) e s 0 s' ∧
      bytesAt s' (a.c + (a.mlen - a.mlen % 8)) (a.mlen % 8) = (bytesAt s a.m a.mlen).drop (a.mlen - a.mlen % 8)) ∧
    ∃ s', Runs ((Target.a128aAvx512 .llp64).aead.encrypt a) e s 0 s' ∧
      bytesAt s' (a.c + 2 ^ 32) (a.mlen - 2 ^ 32) = (bytesAt s a.m a.mlen).drop (2 ^ 32) := by
  constructor
  · obtain ⟨s', h, hb⟩ := C32_false_llp64_opt64 e he s a V h1
    refine ⟨s', h, ?_⟩
    rw [hb, bytesAt_drop, hin, show a.mlen - (a.mlen - a.mlen % 8) = a.mlen % 8 by omega]
  · obtain ⟨s', h, hb⟩ := C32_false_llp64_avx512 e he s a V h1 h2
    refine ⟨s', h, ?_⟩
    rw [hb, bytesAt_drop, hin]

/-- Objects for calls with long messages. -/
def longEnv : Env where
  rd b _ := decide (b < 8)
  wr b _ := decide (b = 0 ∨ b = 1)
  base _ := 0
  strict := false

/-- An in-place encryption of a message of `2^32 + 5` bytes. -/
def longEnc : EncArgs := { c := ⟨0, 0⟩, clen := ⟨1, 0⟩, m := ⟨0, 0⟩, mlen := 2 ^ 32 + 5, ad := ⟨3, 0⟩, adlen := 7, nsec := ⟨9, 0⟩, npub := ⟨4, 0⟩, k := ⟨5, 0⟩ }

/-- A decryption of as many bytes. -/
def longDec : DecArgs := { m := ⟨0, 0⟩, mlen := ⟨1, 0⟩, nsec := ⟨9, 0⟩, c := ⟨2, 0⟩, clen := 2 ^ 32 + 21, ad := ⟨3, 0⟩, adlen := 7, npub := ⟨4, 0⟩, k := ⟨5, 0⟩ }

/-- These calls meet the conditions of the theorems. -/
example : ValidEnc longEnv longEnc ∧ longEnc.c = longEnc.m ∧ longEnc.mlen % 8 ≠ 0 ∧ longEnc.mlen < 2 ^ 63 :=
  ⟨{ k := fun _ _ => rfl, npub := fun _ _ => rfl, ad := fun _ _ => rfl, m := fun _ _ => rfl, c := fun _ _ => ⟨rfl, rfl⟩,
     clen := fun _ _ => ⟨rfl, rfl⟩, adlen_lt := by decide, mlen_lt := by decide, c_m := by decide, c_ad := by decide,
     c_npub := by decide, c_k := by decide, clen_c := by decide, clen_m := by decide, clen_ad := by decide, clen_npub := by decide,
     clen_k := by decide }, rfl, by decide, by decide⟩

/-- Memory in which the tag of `longDec` is that of the first 5 bytes of its body.  (The tag bytes themselves are none of the other
inputs.) -/
def longSt (P : Params) (s : St) : St :=
  putBytes s (longDec.c + (2 ^ 32 + 5)) (P.mac (bytesAt s longDec.k 16) (bytesAt s longDec.npub 16) (bytesAt s longDec.ad 7)
    (bytesAt s longDec.c 5))

example (t : Target) (hc : t.conforming = true) (s : St) : ValidDec longEnv longDec ∧
    bytesAt (longSt t.set.spec s) (longDec.c + (longDec.clen - 16)) 16 = t.set.spec.mac (bytesAt (longSt t.set.spec s) longDec.k 16)
      (bytesAt (longSt t.set.spec s) longDec.npub 16) (bytesAt (longSt t.set.spec s) longDec.ad (longDec.adlen % 2 ^ 32))
      (bytesAt (longSt t.set.spec s) longDec.c ((longDec.clen - 16) % 2 ^ 32)) := by
  have hl : (t.set.spec.mac (bytesAt s longDec.k 16) (bytesAt s longDec.npub 16) (bytesAt s longDec.ad 7)
      (bytesAt s longDec.c 5)).length = 16 := by
    rw [← t.spec_eq hc]
    exact Params.length_mac t.wf _ _ (by simp) (by simp)
  refine ⟨
    { k := fun _ _ => rfl, npub := fun _ _ => rfl, ad := fun _ _ => rfl, m := fun _ _ => ⟨rfl, rfl⟩, c := fun _ _ => rfl,
      mlen := fun _ _ => ⟨rfl, rfl⟩, adlen_lt := by decide, clen_lt := by decide, clen_ge := by decide, m_c := by decide,
      mlen_c := by decide, mlen_m := by decide, mlen_ad := by decide, mlen_npub := by decide, mlen_k := by decide }, ?_⟩
  have e1 : longDec.clen - 16 = 2 ^ 32 + 5 := by decide
  have e2 : (longDec.clen - 16) % 2 ^ 32 = 5 := by decide
  have e3 : longDec.adlen % 2 ^ 32 = 7 := by decide
  rw [e2, e1, e3, longSt, bytesAt_putBytes_same' _ _ _ hl]
  rw [bytesAt_putBytes_disjoint _ _ _ longDec.k _ (by rw [hl]; decide), bytesAt_putBytes_disjoint _ _ _ longDec.npub _ (by rw [hl]; decide),
    bytesAt_putBytes_disjoint _ _ _ longDec.ad _ (by rw [hl]; decide), bytesAt_putBytes_disjoint _ _ _ longDec.c _ (by rw [hl]; decide)]

/-- Objects for a call with `2^32` bytes of associated data. -/
def bigEnv : Env := { Sample.env with rd := fun b o => if b = 3 then decide (o < 2 ^ 32) else Sample.env.rd b o }

/-- A valid call with `2^32` bytes of associated data. -/
example : ValidEnc bigEnv { Sample.enc with adlen := 2 ^ 32 } ∧ ValidDec bigEnv { Sample.dec with adlen := 2 ^ 32 } ∧
    bigEnv.strict = false ∧ Sample.enc.mlen < 2 ^ 32 := by
  have big : Readable bigEnv ⟨3, 0⟩ (2 ^ 32) := by
    intro i hi
    simp only [bigEnv, if_true, Nat.zero_add]
    exact decide_eq_true hi
  have hw : ∀ b o, Sample.env.rd b o = true → bigEnv.rd b o = true := by
    intro b o h
    simp only [bigEnv]
    split
    · rename_i hb
      rw [hb] at h
      have : o < 26 := of_decide_eq_true h
      exact decide_eq_true (by omega)
    · exact h
  have h64 : 2 ^ 32 < 2 ^ 64 := by decide
  have d1 : Disjoint Sample.enc.c 19 Sample.enc.ad (2 ^ 32) := by decide
  have d2 : Disjoint Sample.enc.clen 8 Sample.enc.ad (2 ^ 32) := by decide
  have d3 : Disjoint Sample.dec.mlen 8 Sample.dec.ad (2 ^ 32) := by decide
  refine ⟨{ Sample.validEnc with ad := big, k := ?_, npub := ?_, m := ?_, c := ?_, clen := ?_, adlen_lt := h64, c_ad := d1, clen_ad := d2 },
    { Sample.validDec with ad := big, k := ?_, npub := ?_, m := ?_, c := ?_, mlen := ?_, adlen_lt := h64, mlen_ad := d3 }, rfl, by decide⟩
  · exact fun i hi => hw _ _ (Sample.validEnc.k i hi)
  · exact fun i hi => hw _ _ (Sample.validEnc.npub i hi)
  · exact fun i hi => hw _ _ (Sample.validEnc.m i hi)
  · exact fun i hi => ⟨hw _ _ (Sample.validEnc.c i hi).1, (Sample.validEnc.c i hi).2⟩
  · exact fun i hi => ⟨hw _ _ (Sample.validEnc.clen i hi).1, (Sample.validEnc.clen i hi).2⟩
  · exact fun i hi => hw _ _ (Sample.validDec.k i hi)
  · exact fun i hi => hw _ _ (Sample.validDec.npub i hi)
  · exact fun i hi => hw _ _ (Sample.validDec.c i hi)
  · exact fun i hi => ⟨hw _ _ (Sample.validDec.mlen i hi).1, (Sample.validDec.mlen i hi).2⟩
  · exact fun i hi => ⟨hw _ _ (Sample.validDec.m i hi).1, (Sample.validDec.m i hi).2⟩

example : Target.a128aOpt64.limits.maxLen = 2 ^ 64 ∧ lenMod (.a128aAvx512 .lp64) = 2 ^ 64 ∧ lenMod .k128Opt32Armv7m = 2 ^ 32 :=
  ⟨rfl, rfl, rfl⟩

/-! ## C33 -/

/-- ISAP-A-128a with the functions `isap_enc` and `isap_mac` of avx_512 used one after the other, as in the other directories. -/
def separatePasses (d : DataModel) : Aead := (A128.Opt64.impl (A128.Avx.cfg d)).aead

/-- **C33** The fused loop of avx_512 leaves the same memory as encrypting first and authenticating afterwards. -/
theorem C33_fused (d : DataModel) (e : Env) (s : St) (a : EncArgs) (V : ValidEnc e a) (L : (Target.a128aAvx512 d).limits.Enc e a) :
    ∃ s1 s2, Runs ((Target.a128aAvx512 d).aead.encrypt a) e s 0 s1 ∧ Runs ((separatePasses d).encrypt a) e s 0 s2 ∧
      s1.mem = s2.mem := by
  obtain ⟨s1, h1, m1⟩ := (Target.a128aAvx512 d).encryptOK e s a V L
  have h := Model.encryptOK (L := (Target.a128aAvx512 d).limits) (I := A128.Opt64.impl (A128.Avx.cfg d)) (A128.Avx.cfgOK d).isAscon.wf
    (fun _ => Nat.le_add_right ..) ((A128.Opt64.macOK (A128.Avx.cfgOK d)).shrink (Nat.min_le_right ..)).mem
    ((A128.Opt64.encOK (A128.Avx.cfgOK d)).shrink (Nat.min_le_right ..)) rfl ⟨2, rfl⟩
  obtain ⟨s2, h2, m2⟩ := h e s a V L
  exact ⟨s1, s2, h1, h2, by rw [m1, m2]; rfl⟩

example : ∃ (e : Env) (a : EncArgs), ValidEnc e a ∧ (Target.a128aAvx512 .lp64).limits.Enc e a ∧ a.mlen = 3 ∧ a.adlen = 20 :=
  ⟨_, _, Sample.validEnc, Sample.limitsEnc _, rfl, rfl⟩

end Props
