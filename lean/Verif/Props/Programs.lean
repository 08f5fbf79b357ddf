import Verif.Proof.Programs
import Verif.Proof.Armv7mWitness
import Verif.Props.Sample
/-!
# The programs of the repository that call the API (C35, C36)

`katFile E 32 32` is the text of a file of known answers in which the ciphertexts are given by the function `E`; `hashFile H 1024`
likewise for digests.
-/

namespace Props
open C Spec Spec.Kat Model Model.Prog

theorem prog_limits (t : Target) {b : Bufs} {e : Env} {maxM maxAd : Nat} (htol : e.strict = false) (O : b.Ok e maxM maxAd)
    (hM : maxM < 2 ^ 32) (hA : maxAd < 2 ^ 32) (hx : ∀ a, a ≤ maxAd → t.limits.ext a ≤ maxAd) : b.Limits t e maxM maxAd := by
  intro m a hm ha
  have hl : 2 ^ 32 ≤ t.limits.maxLen := by
    cases t
    case a128aAvx512 d => cases d <;> decide
    case a128Opt64 d => cases d <;> decide
    all_goals first
      | exact (by decide : (2 : Nat) ^ 32 ≤ 2 ^ 64)
      | exact Nat.le_refl _
  exact ⟨Limits.enc_tolerant htol (show a < _ by omega) (show m < _ by omega) (O.ad.readable.mono (hx a ha)),
    Limits.dec_tolerant htol (show a < _ by omega) (show m + 16 - 16 < _ by omega) (O.ad.readable.mono (hx a ha))⟩

/-- A platform that tolerates misaligned accesses: all implementations work with arrays of the sizes of the programs.  (The versions
of ISAP-K-128(a) for 64-bit platforms read up to 6 bytes beyond the associated data; here these bytes belong to the same array.) -/
theorem kat_limits (t : Target) {b : Bufs} {e : Env} (htol : e.strict = false) (O : b.Ok e 32 32) : b.Limits t e 32 32 :=
  prog_limits t htol O (by decide) (by decide) fun a ha => by
    cases t <;> first
      | exact ha
      | (show K128.Opt64.ext a ≤ 32; unfold K128.Opt64.ext; split <;> omega)

/-- C35.  The generator of known answers, with any implementation (except bi_32_armv7m), any initial contents of memory and any
placement of its arrays, ends without undefined behaviour, returns 0, and the file it writes is the one prescribed by ISAP v2.0. -/
theorem C35_generator (t : Target) (hc : t.conforming = true) (b : Bufs) (e : Env) (htol : e.strict = false) (O : b.Ok e 32 32) (s : St) :
    ∃ s', Runs (genkat t.aead b 32 32 true) e s (katFile t.set.spec.encrypt 32 32, 0) s' := by
  have h := runs_genkat O (kat_limits t htol O) s
  rw [Target.spec_eq hc] at h
  exact h

/-- C35.  Also for other sizes of the arrays and on other platforms, if all calls respect the limits of the implementation. -/
theorem C35_generator_sizes (t : Target) (hc : t.conforming = true) (b : Bufs) (e : Env) (maxM maxAd : Nat) (O : b.Ok e maxM maxAd)
    (L : b.Limits t e maxM maxAd) (s : St) :
    ∃ s', Runs (genkat t.aead b maxM maxAd true) e s (katFile t.set.spec.encrypt maxM maxAd, 0) s' := by
  have h := runs_genkat O L s
  rw [Target.spec_eq hc] at h
  exact h

/-- C35.  The reference code has no limits. -/
theorem C35_generator_ref (p : ParamSet) (b : Bufs) (e : Env) (maxM maxAd : Nat) (O : b.Ok e maxM maxAd) (s : St) :
    ∃ s', Runs (genkat (Target.ref p).aead b maxM maxAd true) e s (katFile p.spec.encrypt maxM maxAd, 0) s' :=
  C35_generator_sizes (.ref p) rfl b e maxM maxAd O
    (fun _ _ hm ha => ⟨Limits.enc_byBytes (O.validEnc hm ha), Limits.dec_byBytes (O.validDec hm ha).toValidDecIn⟩) s

/-- C35.  If the file cannot be opened, the generator returns -1 and calls nothing. -/
theorem C35_not_opened (A : Aead) (b : Bufs) (e : Env) (maxM maxAd : Nat) (O : b.Ok e maxM maxAd) (s : St) :
    ∃ s', Runs (genkat A b maxM maxAd false) e s ([], -1) s' := runs_genkat_closed A O s

/-- C35.  The demo prints one record and returns 0. -/
theorem C35_demo (t : Target) (hc : t.conforming = true) (b : Bufs) (e : Env) (htol : e.strict = false) (O : b.Ok e 32 32) (s : St) :
    ∃ s', Runs (demo t.aead b 32 32) e s (record t.set.spec.encrypt 32 32 1, 0) s' := by
  have h := runs_demo O (kat_limits t htol O) s
  rw [Target.spec_eq hc] at h
  exact h

/-- C35.  What comparing two such files establishes: the ciphertexts agree for all (maxM + 1)(maxAd + 1) inputs. -/
theorem C35_file_determines (E E' : (K N A M : List Byte) → List Byte) (maxM maxAd : Nat)
    (hl : ∀ K N A M, K.length = 16 → N.length = 16 → (E K N A M).length = (E' K N A M).length) (h : katFile E maxM maxAd = katFile E' maxM maxAd)
    (m a : Nat) (hm : m ≤ maxM) (ha : a ≤ maxAd) :
    E (ramp 16) (ramp 16) (ramp a) (ramp m) = E' (ramp 16) (ramp 16) (ramp a) (ramp m) :=
  katFile_inj (fun _ _ => hl _ _ _ _ (by simp) (by simp)) h m a hm ha

/-- C35.  The generator decrypts what it encrypted, but this check does not notice an implementation that is wrong in both
directions: with bi_32_armv7m it returns 0 as well, and only the comparison of the files shows the difference. -/
theorem C35_self_check_insufficient (b : Bufs) (e : Env) (htol : e.strict = false) (O : b.Ok e 32 32) (s : St) :
    ∃ file s', Runs (genkat Target.a128aBi32Armv7m.aead b 32 32 true) e s (file, 0) s' ∧ file ≠ katFile isapA128a.encrypt 32 32 := by
  obtain ⟨s', h⟩ := runs_genkat O (kat_limits .a128aBi32Armv7m htol O) s
  refine ⟨_, s', h, fun hh => ?_⟩
  have hl : ∀ (t : Target) K N A M, K.length = 16 → N.length = 16 → (t.spec.encrypt K N A M).length = M.length + 16 := by
    intro t K N A M hk hn
    rw [Params.encrypt, List.length_append, Params.length_enc, Params.length_mac t.wf _ _ hk hn]
  have h0 := C35_file_determines _ _ 32 32 (fun K N A M hk hn => (hl .a128aBi32Armv7m K N A M hk hn).trans (hl (.ref .a128a) K N A M hk hn).symm) hh 0 0 (by decide) (by decide)
  exact Opt.Armv7m.mac_ne_ramp h0.symm

/-! ## Hashing -/

/-- C36.  The generator of known answers for `crypto_hash`. -/
theorem C36_generator (t : Target) (hc : t.conforming = true) (f : Ptr → Ptr → Nat → CM Int) (hf : t.hash = some f) (msg digest : Ptr)
    (e : Env) (htol : e.strict = false) (O : HashBufs msg digest e 1024) (s : St) :
    ∃ s', Runs (genkatHash f msg digest 1024 true) e s (hashFile AsconHash.hash 1024, 0) s' := by
  have h := runs_genkatHash hf O (fun _ _ => ⟨.tolerant htol .., .tolerant htol ..⟩) s
  rw [Target.hashSpec, if_pos hc] at h
  exact h

/-- C36.  Also for other sizes and on other platforms, if the arrays are aligned suitably. -/
theorem C36_generator_sizes (t : Target) (hc : t.conforming = true) (f : Ptr → Ptr → Nat → CM Int) (hf : t.hash = some f)
    (msg digest : Ptr) (e : Env) (maxM : Nat) (O : HashBufs msg digest e maxM) (hal : Aligned e 8 msg maxM ∧ Aligned e 8 digest 32) (s : St) :
    ∃ s', Runs (genkatHash f msg digest maxM true) e s (hashFile AsconHash.hash maxM, 0) s' := by
  have h := runs_genkatHash hf O (fun _ hm => ⟨hal.1.mono hm, hal.2⟩) s
  rw [Target.hashSpec, if_pos hc] at h
  exact h

/-- C36.  What comparing two such files establishes. -/
theorem C36_file_determines (H H' : List Byte → List Byte) (maxM : Nat) (hl : ∀ M, (H M).length = (H' M).length)
    (h : hashFile H maxM = hashFile H' maxM) (m : Nat) (hm : m ≤ maxM) : H (ramp m) = H' (ramp m) :=
  hashFile_inj (fun _ => hl _) h m hm

/-- C36.  The file written with bi_32_armv7m is wrong. -/
theorem C36_armv7m_file_wrong (msg digest : Ptr) (e : Env) (htol : e.strict = false) (O : HashBufs msg digest e 1024) (s : St) :
    ∃ f file s', Target.a128aBi32Armv7m.hash = some f ∧ Runs (genkatHash f msg digest 1024 true) e s (file, 0) s' ∧
      file ≠ hashFile AsconHash.hash 1024 := by
  obtain ⟨s', h⟩ := runs_genkatHash (t := .a128aBi32Armv7m) rfl O (fun _ _ => ⟨.tolerant htol .., .tolerant htol ..⟩) s
  refine ⟨_, _, s', rfl, h, fun hh => ?_⟩
  have h2 := C36_file_determines _ _ 1024 (fun M => by rw [Target.length_hashSpec, hash_words]; exact (length_hashQ _ _).symm) hh 0 (by decide)
  exact Opt.Armv7m.hash_ne h2.symm

/-! ## The benchmarks -/

/-- C37.  Encrypting `n ≥ 1` times into the same buffers (the loops of the benchmarks), for any contents: no undefined behaviour, and
the result is the ciphertext of the message, as after one call. -/
theorem C37_repeat (t : Target) (hc : t.conforming = true) (b : Bufs) (e : Env) (n m a : Nat) (hn : 0 < n) (V : ValidEnc e (b.enc m a))
    (L : t.limits.Enc e (b.enc m a)) (hm : b.msg.blk ≠ b.ct.blk) (s : St) :
    ∃ s', Runs (repeatEncrypt t.aead b n m a) e s () s' ∧
      bytesAt s' b.ct (m + 16) =
        t.set.spec.encrypt (bytesAt s b.key 16) (bytesAt s b.nonce 16) (bytesAt s b.ad a) (bytesAt s b.msg m) := by
  obtain ⟨s', h, -, h2⟩ := runs_repeat V L hm n 0 s
  rw [Target.spec_eq hc] at h2
  exact ⟨s', h, h2 hn⟩

/-- C37.  The program `bulk`: its result after any number of runs. -/
theorem C37_bulk (t : Target) (hc : t.conforming = true) (b : Bufs) (e : Env) (htol : e.strict = false) (runs : Nat) (hr : 0 < runs)
    (O : b.Ok e 1536 0) (s : St) :
    ∃ s', Runs (bulk t.aead b runs 1536 0) e s 0 s' ∧
      bytesAt s' b.ct (1536 + 16) = t.set.spec.encrypt (ramp 16) (ramp 16) [] (ramp 1536) := by
  have h := runs_bulk O (prog_limits t htol O (by decide) (by decide) fun a ha => ?_) hr s
  · rw [Target.spec_eq hc] at h
    exact h
  · obtain rfl : a = 0 := by omega
    cases t <;> exact Nat.le_refl 0

/-- C37.  Hashing `n + 1` times. -/
theorem C37_repeat_hash (t : Target) (hc : t.conforming = true) (f : Ptr → Ptr → Nat → CM Int) (hf : t.hash = some f) (msg digest : Ptr)
    (e : Env) (n m : Nat) (V : ValidHash e ⟨digest, msg, m⟩) (hal : AlignedHash e ⟨digest, msg, m⟩) (hd : Disjoint msg m digest 32) (s : St) :
    Runs (repeatHash f msg digest (n + 1) m) e s () (putBytes s digest (AsconHash.hash (bytesAt s msg m))) := by
  have h := runs_repeatHash hf V hal hd n 0 s
  rw [Target.hashSpec, if_pos hc] at h
  exact h

/-! ## Concrete cases -/

/-- Arrays of the programs as objects 0 to 7. -/
def progBufs : Bufs := ⟨⟨0, 0⟩, ⟨1, 0⟩, ⟨2, 0⟩, ⟨3, 0⟩, ⟨4, 0⟩, ⟨5, 0⟩, ⟨6, 0⟩, ⟨7, 0⟩, ⟨8, 0⟩⟩

/-- Memory with nothing but these arrays, of exactly the declared sizes. -/
def progEnv (maxM maxAd : Nat) : Env where
  rd b o := decide (o < [16, 16, maxM, maxM, maxAd, maxM + 16, 8, 8].getD b 0)
  wr b o := decide (o < [16, 16, maxM, maxM, maxAd, maxM + 16, 8, 8].getD b 0)
  base _ := 0
  strict := false

theorem progBufs_ok (maxM maxAd : Nat) (h1 : maxM + 16 < 2 ^ 64) (h2 : maxAd < 2 ^ 64) : progBufs.Ok (progEnv maxM maxAd) maxM maxAd := by
  have W : ∀ b n, n ≤ [16, 16, maxM, maxM, maxAd, maxM + 16, 8, 8].getD b 0 → Writable (progEnv maxM maxAd) ⟨b, 0⟩ n :=
    fun b n h i hi =>
    have h' : 0 + i < [16, 16, maxM, maxM, maxAd, maxM + 16, 8, 8].getD b 0 := by omega
    ⟨decide_eq_true h', decide_eq_true h'⟩
  exact ⟨W 0 16 (Nat.le_refl _), W 1 16 (Nat.le_refl _), W 2 _ (Nat.le_refl _), W 3 _ (Nat.le_refl _), W 4 _ (Nat.le_refl _),
    W 5 _ (Nat.le_refl _), W 6 _ (Nat.le_refl _), W 7 _ (Nat.le_refl _), by decide, h1, h2⟩

example : ∃ s', Runs (genkat Target.k128Opt64.aead progBufs 32 32 true) (progEnv 32 32) Sample.st (katFile isapK128.encrypt 32 32, 0) s' :=
  C35_generator .k128Opt64 rfl _ _ rfl (progBufs_ok 32 32 (by decide) (by decide)) _

example : ∃ s', Runs (genkat (Target.ref .a128).aead progBufs 5 70 true) (progEnv 5 70) Sample.st (katFile isapA128.encrypt 5 70, 0) s' :=
  C35_generator_ref .a128 _ _ _ _ (progBufs_ok 5 70 (by decide) (by decide)) _

example : ∃ s', Runs (bulk (Target.a128aAvx512 .lp64).aead progBufs 10000 1536 0) (progEnv 1536 0) Sample.st 0 s' :=
  let ⟨s', h, _⟩ := C37_bulk (.a128aAvx512 .lp64) rfl _ _ rfl 10000 (by decide) (progBufs_ok 1536 0 (by decide) (by decide)) _
  ⟨s', h⟩

/-- The arrays of the hash program are objects 2 and 5. -/
example : HashBufs ⟨2, 0⟩ ⟨5, 0⟩ (progEnv 1024 0) 1024 ∧ ∃ f, Target.a128aBi8.hash = some f :=
  have O := progBufs_ok 1024 0 (by decide) (by decide)
  ⟨⟨O.msg, fun i hi => O.ct i (by omega), by decide, by decide⟩, _, rfl⟩

end Props
