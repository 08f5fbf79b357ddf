import Verif.Proof.Armv7mWitness
import Verif.Props.History
import Verif.Props.Memory
/-!
# `crypto_hash`
-/

namespace Props
open C Model Spec

/-- **C25** `crypto_hash` returns 0 and stores the 32-byte Ascon-Hash of its input (all implementations except
bi_32_armv7m). -/
theorem C25_ascon_hash_partial (t : Target) (hc : t.conforming = true) (f : Ptr → Ptr → Nat → CM Int) (hf : t.hash = some f)
    (e : Env) (a : HashArgs) (hal : AlignedHash e a) (V : ValidHash e a) (s : St) :
    ∃ s', Runs (f a.out a.inp a.inlen) e s 0 s' ∧ bytesAt s' a.out 32 = AsconHash.hash (bytesAt s a.inp a.inlen) := by
  refine ⟨_, Target.hash_run hf hal V s, ?_⟩
  rw [bytesAt_putBytes_same' _ _ _ (t.length_hashSpec _), Target.hashSpec, if_pos hc]

/-- **C25** is false of bi_32_armv7m: the hash of the empty string is wrong. -/
theorem C25_not_armv7m : ∃ (f : Ptr → Ptr → Nat → CM Int) (e : Env) (a : HashArgs) (s s' : St),
    Target.a128aBi32Armv7m.hash = some f ∧ ValidHash e a ∧ Runs (f a.out a.inp a.inlen) e s 0 s' ∧
    bytesAt s' a.out 32 ≠ AsconHash.hash (bytesAt s a.inp a.inlen) := by
  let e : Env := ⟨fun b o => decide (b = 0 ∧ o < 32), fun b o => decide (b = 0 ∧ o < 32), fun _ => 0, false⟩
  have V : ValidHash e ⟨⟨0, 0⟩, ⟨1, 0⟩, 0⟩ :=
    { inp := fun i hi => absurd hi (Nat.not_lt_zero i)
      out := fun i hi => by simp [e]; exact hi
      inlen_lt := by decide }
  refine ⟨_, e, ⟨⟨0, 0⟩, ⟨1, 0⟩, 0⟩, Sample.st, _, rfl, V, Target.hash_run (t := .a128aBi32Armv7m) rfl ⟨.tolerant rfl .., .tolerant rfl ..⟩ V _, ?_⟩
  rw [bytesAt_putBytes_same' _ _ _ (Target.length_hashSpec _ _)]
  exact fun h => Opt.Armv7m.hash_ne h.symm

/-- A call that hashes part of a buffer into the same buffer. -/
def sampleHash : HashArgs := ⟨⟨0, 4⟩, ⟨0, 0⟩, 21⟩
def sampleHashEnv : Env := ⟨fun b o => decide (b = 0 ∧ o < 36), fun b o => decide (b = 0 ∧ o < 36), fun _ => 0, false⟩

theorem sampleHash_valid : ValidHash sampleHashEnv sampleHash where
  inp i hi := by
    have hi : i < 21 := hi
    exact decide_eq_true ⟨rfl, show 0 + i < 36 by omega⟩
  out i hi := by
    have h : 4 + i < 36 := by omega
    exact ⟨decide_eq_true ⟨rfl, h⟩, decide_eq_true ⟨rfl, h⟩⟩
  inlen_lt := by decide

theorem sampleHash_aligned : AlignedHash sampleHashEnv sampleHash := ⟨.tolerant rfl .., .tolerant rfl ..⟩

example : ∃ f, Target.a128aOpt64.hash = some f ∧ Target.a128aOpt64.conforming = true ∧ AlignedHash sampleHashEnv sampleHash ∧
    ValidHash sampleHashEnv sampleHash := ⟨_, rfl, rfl, sampleHash_aligned, sampleHash_valid⟩

/-- **C26** `crypto_hash` reads only `inlen` bytes of input (and may read its output), writes only the 32 bytes of output
and changes nothing else; input and output may overlap. -/
theorem C26_hash_memory (t : Target) (f : Ptr → Ptr → Nat → CM Int) (hf : t.hash = some f) (e : Env) (a : HashArgs)
    (hal : AlignedHash e a) (V : ValidHash e a) (s : St) :
    ∃ s' tr, run (f a.out a.inp a.inlen) e s = .ok 0 s' tr ∧
      Within (fun b o => InBuf a.inp a.inlen b o ∨ InBuf a.out 32 b o) (fun b o => InBuf a.out 32 b o) tr ∧
      ∀ b o, ¬ InBuf a.out 32 b o → s'.mem b o = s.mem b o := by
  have V2 : ValidHash (restrict e (fun b o => InBuf a.inp a.inlen b o ∨ InBuf a.out 32 b o) (fun b o => InBuf a.out 32 b o)) a :=
    { V with
      inp := restrict_readable V.inp fun _ _ h => Or.inl h
      out := restrict_writable V.out (fun _ _ h => Or.inr h) (fun _ _ h => h) }
  have h := Target.hash_run hf (e := restrict e _ _) ⟨hal.inp, hal.out⟩ V2 s
  obtain ⟨tr, h1, h2⟩ := within_of_restrict h
  exact ⟨_, tr, h1, h2, fun b o hb => putBytes_frame (t.length_hashSpec _) hb⟩

/-- **C26** With an empty input the input pointer may be anything. -/
theorem C26_hash_null_input (t : Target) (f : Ptr → Ptr → Nat → CM Int) (hf : t.hash = some f) (e : Env)
    (out p : Ptr) (hal : Aligned e 8 out 32) (hout : Writable e out 32) (s : St) :
    ∃ s', Runs (f out p 0) e s 0 s' ∧ bytesAt s' out 32 = t.hashSpec [] := by
  have V : ValidHash e ⟨out, p, 0⟩ := ⟨fun i hi => absurd hi (Nat.not_lt_zero i), hout, (by decide : 0 < 2 ^ 64)⟩
  exact ⟨_, Target.hash_run hf ⟨aligned_zero .., hal⟩ V s, bytesAt_putBytes_same' _ _ _ (t.length_hashSpec _)⟩

/-- **C26** Two calls on the same input, whatever the placement of the buffers, store the same digest. -/
theorem C26_hash_placement (t : Target) (f : Ptr → Ptr → Nat → CM Int) (hf : t.hash = some f) (e1 e2 : Env)
    (a b : HashArgs) (h1 : AlignedHash e1 a) (h2 : AlignedHash e2 b) (V1 : ValidHash e1 a) (V2 : ValidHash e2 b) (s t1 s2 t2 : St)
    (r1 r2 : Int) (heq : bytesAt s a.inp a.inlen = bytesAt s2 b.inp b.inlen)
    (hr1 : Runs (f a.out a.inp a.inlen) e1 s r1 t1) (hr2 : Runs (f b.out b.inp b.inlen) e2 s2 r2 t2) :
    bytesAt t1 a.out 32 = bytesAt t2 b.out 32 := by
  obtain ⟨_, e1'⟩ := hr1.det (Target.hash_run hf h1 V1 s)
  obtain ⟨_, e2'⟩ := hr2.det (Target.hash_run hf h2 V2 s2)
  rw [e1', e2', bytesAt_putBytes_same' _ _ _ (t.length_hashSpec _), bytesAt_putBytes_same' _ _ _ (t.length_hashSpec _), heq]

/-- **C27** In a program built from `crypto_aead_hash`, after any history of calls of `crypto_hash`, encryption and
decryption, an encryption produces the same ciphertext as a conforming implementation of `crypto_aead` called first. -/
theorem C27_encrypt_unaffected_by_hash (t t' : Target) (hh : t.hash.isSome = true) (ht : t.conforming = true)
    (ht' : t'.conforming = true) (hset : t'.set = .a128a) (e : Env) (mem0 : Nat → Nat → Byte) (s : St) (_h : History (fresh mem0) s)
    (a : EncArgs) (V : ValidEnc e a) (L : t.limits.Enc e a) (L' : t'.limits.Enc e a) :
    ∃ s1 s2, Runs (t.aead.encrypt a) e s 0 s1 ∧ Runs (t'.aead.encrypt a) e (fresh s.mem) 0 s2 ∧ s1.mem = s2.mem := by
  obtain ⟨s1, h1, m1⟩ := t.encryptOK e s a V L
  obtain ⟨s2, h2, m2⟩ := t'.encryptOK e (fresh s.mem) a V L'
  refine ⟨s1, s2, h1, h2, ?_⟩
  have hm : s.mem = (fresh s.mem).mem := rfl
  have hset' : t.set = .a128a := by
    cases t <;> first | rfl | exact absurd hh (by simp [Target.hash, Target.hashPrims])
  rw [m1, m2, Target.spec_eq ht, Target.spec_eq ht', hset, hset']
  simp only [bytesAt_mem_congr hm]
  exact putBytes_mem_congr (putBytes_mem_congr hm)

/-- **C27** The same for decryption, which returns the same value and leaves the same memory (of the non-stp variants). -/
theorem C27_decrypt_unaffected_by_hash (t t' : Target) (hh : t.hash.isSome = true) (ht : t.conforming = true)
    (hs : t.stp = false) (hs' : t'.stp = false) (ht' : t'.conforming = true) (hset : t'.set = .a128a) (e : Env)
    (mem0 : Nat → Nat → Byte) (s : St) (_h : History (fresh mem0) s) (d : DecArgs) (V : ValidDec e d) (L : t.limits.Dec e d)
    (L' : t'.limits.Dec e d) :
    ∃ r s1 s2, Runs (t.aead.decrypt d) e s r s1 ∧ Runs (t'.aead.decrypt d) e (fresh s.mem) r s2 ∧ s1.mem = s2.mem := by
  have hm : s.mem = (fresh s.mem).mem := rfl
  have hset' : t.set = .a128a := by
    cases t <;> first | rfl | exact absurd hh (by simp [Target.hash, Target.hashPrims])
  have hspec : t.spec = t'.spec := by rw [Target.spec_eq ht, Target.spec_eq ht', hset, hset']
  have hplain : t.plain s d = t'.plain (fresh s.mem) d := by
    simp only [Target.plain, hspec, bytesAt_mem_congr hm]
  have hacc : t.accepts s d ↔ t'.accepts (fresh s.mem) d := by
    simp only [Target.accepts, Target.acc, hs, hs', hspec, bytesAt_mem_congr hm]
  by_cases h : t.accepts s d
  · obtain ⟨s1, h1, m1⟩ := dec_accept V L h
    obtain ⟨s2, h2, m2⟩ := dec_accept V L' (hacc.1 h)
    refine ⟨0, s1, s2, h1, h2, ?_⟩
    rw [m1, m2, hplain]
    exact putBytes_mem_congr (putBytes_mem_congr hm)
  · obtain ⟨s1, h1, m1⟩ := dec_reject V.toValidDecIn L h
    obtain ⟨s2, h2, m2⟩ := dec_reject V.toValidDecIn L' (fun h' => h (hacc.2 h'))
    refine ⟨-1, s1, s2, h1, h2, ?_⟩
    rw [m1, m2]
    exact putBytes_mem_congr hm

/-- A history with a hash call: the hypotheses of the two theorems can be met. -/
example : ∃ s, History (fresh fun _ _ => 0) s ∧ Target.a128aOpt64.hash.isSome = true ∧
    ValidEnc Sample.env Sample.enc ∧ Target.a128aOpt64.limits.Enc Sample.env Sample.enc ∧ (Target.ref .a128a).limits.Enc Sample.env Sample.enc :=
  ⟨_, .cons _ _ _ (.hash .a128aOpt64 _ rfl sampleHashEnv sampleHash 0 _ _
    (Target.hash_run (t := .a128aOpt64) rfl sampleHash_aligned sampleHash_valid _)) (.nil _), rfl, Sample.validEnc, Sample.limitsEnc _,
    Sample.limitsEnc _⟩

end Props
