import Verif.Proof.BigEndianWitness
import Verif.Proof.Queries
import Verif.Proof.Perms
import Verif.Props.Hash
import Verif.Props.Armv7m
/-!
# C46: byte order of the platform

The reference code of the two parameter sets with the Ascon permutation works with either byte order.  The portable optimized
implementations of `isapa128av20` do not: on a big-endian platform they compute ISAP with another permutation, so that they
work with themselves but not with the reference code.
-/

namespace Props
open C Model Spec

/-- The parameter sets with the Ascon permutation. -/
def Ascons (p : ParamSet) : Prop := p = .a128a ∨ p = .a128

/-- **C46** for the Ascon reference code, encryption: on platforms of either byte order the call writes the ciphertext of the
specification and its length. -/
theorem C46_encrypt_partial {o : ByteOrder} {p : ParamSet} (_ : Ascons p) {e : Env} {s : St} {a : EncArgs} (V : ValidEnc e a) :
    ∃ s', Runs ((asconRefIn o p.cfg).encrypt a) e s 0 s' ∧ (word o (bytesAt s' a.clen 8)).toNat = a.mlen + 16 ∧
      bytesAt s' a.c (a.mlen + 16) =
        p.spec.encrypt (bytesAt s a.k 16) (bytesAt s a.npub 16) (bytesAt s a.ad a.adlen) (bytesAt s a.m a.mlen) := by
  obtain ⟨s', hr, hm⟩ := encryptInOK o p.cfgOK.wf (Nat.le_add_right · 16) (I := Ref.impl p.cfg) (Ref.macOK p.cfgOK).mem
    (Ref.encOK p.cfgOK) rfl ⟨16, rfl⟩ e s a V (Limits.enc_byBytes V)
  have hl : (p.spec.encrypt (bytesAt s a.k 16) (bytesAt s a.npub 16) (bytesAt s a.ad a.adlen) (bytesAt s a.m a.mlen)).length =
      a.mlen + 16 := (Target.ref p).length_out s a
  refine ⟨s', hr, ?_, ?_⟩
  · rw [bytesAt_mem_congr hm, bytesAt_putBytes_disjoint, bytesAt_putBytes_same' _ _ _ (by simp), word_bytes, BitVec.toNat_ofNat,
      Nat.mod_eq_of_lt V.mlen_lt]
    rw [hl]; exact V.clen_c
  · rw [bytesAt_mem_congr hm, bytesAt_putBytes_same' _ _ _ hl]

/-- **C46** for the Ascon reference code, decryption: with either byte order the call accepts exactly the correct tags, and then
writes the plaintext of the specification and its length; otherwise it changes the length cell only. -/
theorem C46_decrypt_partial {o : ByteOrder} {p : ParamSet} (_ : Ascons p) {e : Env} {s : St} {a : DecArgs} (V : ValidDec e a) :
    ∃ (r : Int) (s' : St), Runs ((asconRefIn o p.cfg).decrypt a) e s r s' ∧ (r = 0 ∨ r = -1) ∧
      (word o (bytesAt s' a.mlen 8)).toNat = a.clen - 16 ∧
      (r = 0 ↔ bytesAt s (a.c + (a.clen - 16)) 16 =
        p.spec.mac (bytesAt s a.k 16) (bytesAt s a.npub 16) (bytesAt s a.ad a.adlen) (bytesAt s a.c (a.clen - 16))) ∧
      (r = 0 → bytesAt s' a.m (a.clen - 16) =
        p.spec.enc (bytesAt s a.k 16) (bytesAt s a.npub 16) (bytesAt s a.c (a.clen - 16))) ∧
      (r = -1 → ∀ (b i : Nat), ¬ InBuf a.mlen 8 b i → s'.mem b i = s.mem b i) := by
  have key := decryptInOK o p.cfgOK.wf (Nat.le_add_right · 16) (I := Ref.impl p.cfg) (Ref.macOK p.cfgOK)
    (Ref.encOK p.cfgOK) e s a V.toValidDecIn (Limits.dec_byBytes V.toValidDecIn)
  have hlt : a.clen - 16 < 2 ^ 64 := Nat.lt_of_le_of_lt (Nat.sub_le _ _) V.clen_lt
  by_cases h : tagEq p.spec (bytesAt s a.k 16) (bytesAt s a.npub 16) (bytesAt s a.ad a.adlen) (bytesAt s a.c (a.clen - 16))
        (bytesAt s (a.c + (a.clen - 16)) 16)
  · obtain ⟨s', hr, hm⟩ := key.1 h V
    refine ⟨0, s', hr, Or.inl rfl, ?_, ⟨fun _ => h, fun _ => rfl⟩, fun _ => ?_, fun h => absurd h (by decide)⟩
    · rw [bytesAt_mem_congr hm, bytesAt_putBytes_disjoint, bytesAt_putBytes_same' _ _ _ (by simp), word_bytes,
        BitVec.toNat_ofNat, Nat.mod_eq_of_lt hlt]
      simpa using V.mlen_m
    · rw [bytesAt_mem_congr hm, bytesAt_putBytes_same' _ _ _ (by simp)]
  · obtain ⟨s', hr, hm⟩ := key.2 h
    refine ⟨-1, s', hr, Or.inr rfl, ?_, ⟨fun h => absurd h (by decide), fun h' => absurd h' h⟩, fun h => absurd h (by decide),
      fun _ b i hb => ?_⟩
    · rw [bytesAt_mem_congr hm, bytesAt_putBytes_same' _ _ _ (by simp), word_bytes, BitVec.toNat_ofNat, Nat.mod_eq_of_lt hlt]
    · rw [hm]
      exact putBytes_frame (by simp) hb

example : Ascons .a128 ∧ Ascons .a128a ∧ ValidEnc Sample.env Sample.enc ∧ ValidDec Sample.env Sample.dec :=
  ⟨Or.inr rfl, Or.inl rfl, Sample.validEnc, Sample.validDec⟩

/-- The two byte orders store lengths differently, so the theorems do not hold by coincidence. -/
example : bytes .big 19 ≠ bytes .little 19 := by decide

/-- On a little-endian platform these are the functions that the other properties are about. -/
theorem C46_little (p : ParamSet) (v : PortableA) : asconRefIn .little p.cfg = (Target.ref p).aead ∧
    v.aead .little = v.target.aead ∧ some (v.hash .little) = v.target.hash := by
  refine ⟨rfl, ?_, ?_⟩ <;> cases v <;> rfl

/-! ## The portable optimized implementations of isapa128av20 -/

theorem portable_limits (v : PortableA) : v.target.limits = .byWords := by cases v <;> rfl

/-- What the implementations compute: ISAP-A-128a with some bijection in place of the Ascon permutation; on a
little-endian platform it is the Ascon permutation. -/
theorem C46_mode (v : PortableA) (o : ByteOrder) : ∃ perm : Nat → List Byte → List Byte,
    (∀ n, BijOn 40 (perm n)) ∧ (o = .little → perm = Ascon.perm) ∧
    (∀ (e : Env) (s : St) (a : EncArgs), ValidEnc e a → v.target.limits.Enc e a →
      ∃ s', Runs ((v.aead o).encrypt a) e s 0 s' ∧ (word o (bytesAt s' a.clen 8)).toNat = a.mlen + 16 ∧
        bytesAt s' a.c (a.mlen + 16) = { isapA128a with perm := perm }.encrypt (bytesAt s a.k 16) (bytesAt s a.npub 16)
          (bytesAt s a.ad a.adlen) (bytesAt s a.m a.mlen) ∧
        ∀ (b i : Nat), ¬ InBuf a.clen 8 b i → ¬ InBuf a.c (a.mlen + 16) b i → s'.mem b i = s.mem b i) ∧
    (∀ (e : Env) (s : St) (a : DecArgs), ValidDec e a → v.target.limits.Dec e a →
      ∃ (r : Int) (s' : St), Runs ((v.aead o).decrypt a) e s r s' ∧ (r = 0 ∨ r = -1) ∧
        (word o (bytesAt s' a.mlen 8)).toNat = a.clen - 16 ∧
        (r = 0 ↔ bytesAt s (a.c + (a.clen - 16)) 16 = { isapA128a with perm := perm }.mac (bytesAt s a.k 16)
          (bytesAt s a.npub 16) (bytesAt s a.ad a.adlen) (bytesAt s a.c (a.clen - 16))) ∧
        (r = 0 → bytesAt s' a.m (a.clen - 16) = { isapA128a with perm := perm }.enc (bytesAt s a.k 16) (bytesAt s a.npub 16)
          (bytesAt s a.c (a.clen - 16))) ∧
        (r = -1 → ∀ (b i : Nat), ¬ InBuf a.mlen 8 b i → s'.mem b i = s.mem b i)) := by
  rw [portable_limits]
  refine ⟨fun n b => Ascon.toBytes (v.q o n (Ascon.ofBytes b)), fun n => bijOn_ascon (v.q_bijective o n), ?_, ?_, ?_⟩
  · rintro rfl
    rfl
  · intro e s a V L
    exact v.encrypts o V L
  · intro e s a V L
    exact v.decrypts o V L

/-- Every implementation decrypts what it has encrypted, with either byte order. -/
theorem C46_round_trip (v : PortableA) (o : ByteOrder) (e e' : Env) (s s1 s2 : St) (a : EncArgs) (d : DecArgs) (r : Int)
    (V : ValidEnc e a) (L : v.target.limits.Enc e a) (V' : ValidDec e' d) (L' : v.target.limits.Dec e' d)
    (h : Runs ((v.aead o).encrypt a) e s r s1)
    (hk : bytesAt s2 d.k 16 = bytesAt s a.k 16)
    (hn : bytesAt s2 d.npub 16 = bytesAt s a.npub 16)
    (had : bytesAt s2 d.ad d.adlen = bytesAt s a.ad a.adlen)
    (hlen : d.clen = (word o (bytesAt s1 a.clen 8)).toNat)
    (hc : bytesAt s2 d.c d.clen = bytesAt s1 a.c d.clen) :
    ∃ s3, Runs ((v.aead o).decrypt d) e' s2 0 s3 ∧
      (word o (bytesAt s3 d.mlen 8)).toNat = a.mlen ∧
      bytesAt s3 d.m a.mlen = bytesAt s a.m a.mlen := by
  rw [portable_limits] at L L'
  obtain ⟨s1', h', h1, h2, -⟩ := v.encrypts o V L (s := s)
  obtain ⟨rfl, rfl⟩ := Runs.det h h'
  obtain ⟨r', s3, h3, -, h4, h5, h6, -⟩ := v.decrypts o V' L' (s := s2)
  have hcl : d.clen = a.mlen + 16 := hlen.trans h1
  rw [hcl, h2, ← hcl, bytesAt_split (by omega), Params.encrypt] at hc
  obtain ⟨hC, hT⟩ := List.append_inj hc (by simp; omega)
  rw [hk, hn, had, hC] at h5
  obtain rfl := h5.2 hT
  refine ⟨s3, h3, by rw [h4, hcl]; omega, ?_⟩
  have := h6 rfl
  rw [hk, hn, hC, Params.enc_enc, hcl, Nat.add_sub_cancel] at this
  exact this

/-- The hypotheses of the two theorems are met by the sample calls. -/
example (v : PortableA) : ValidEnc Sample.env Sample.enc ∧ v.target.limits.Enc Sample.env Sample.enc ∧
    ValidDec Sample.env Sample.dec ∧ v.target.limits.Dec Sample.env Sample.dec :=
  ⟨Sample.validEnc, Sample.limitsEnc _, Sample.validDec, Sample.limitsDec _⟩

/-- opt_8 and opt_8_tiny. -/
def ByBytes (v : PortableA) : Prop := v = .opt8 ∨ v = .opt8Tiny

/-- **C46** for the ciphertext body written by opt_8 and opt_8_tiny: it is that of the specification with either byte order.
Missing: the tag, which is wrong on big-endian platforms (`C46_not`). -/
theorem C46_opt8_body_partial {v : PortableA} (hv : ByBytes v) {o : ByteOrder} {e : Env} {s : St} {a : EncArgs}
    (V : ValidEnc e a) (L : v.target.limits.Enc e a) :
    ∃ s', Runs ((v.aead o).encrypt a) e s 0 s' ∧ (word o (bytesAt s' a.clen 8)).toNat = a.mlen + 16 ∧
      bytesAt s' a.c a.mlen = isapA128a.enc (bytesAt s a.k 16) (bytesAt s a.npub 16) (bytesAt s a.m a.mlen) := by
  rw [portable_limits] at L
  obtain ⟨s', h, h1, h2, -⟩ := v.encrypts o V L (s := s)
  refine ⟨s', h, h1, ?_⟩
  rw [Params.encrypt] at h2
  have h3 := congrArg (List.take a.mlen) h2
  rw [bytesAt_take _ _ _ _ (by omega), List.take_left' (by simp)] at h3
  rw [h3]
  exact v.enc_bytes hv o (by simp) (by simp) _

example : ByBytes .opt8 ∧ ByBytes .opt8Tiny := ⟨Or.inl rfl, Or.inr rfl⟩

/-- **C46** for `crypto_hash` of opt_8 and opt_8_tiny: it is Ascon-Hash with either byte order. -/
theorem C46_opt8_hash {v : PortableA} (hv : ByBytes v) {o : ByteOrder} {e : Env} {a : HashArgs} (hal : AlignedHash e a)
    (V : ValidHash e a) (s : St) :
    ∃ s', Runs (v.hash o a.out a.inp a.inlen) e s 0 s' ∧ bytesAt s' a.out 32 = AsconHash.hash (bytesAt s a.inp a.inlen) := by
  refine ⟨_, v.runs_hash o hal V s, ?_⟩
  rw [bytesAt_putBytes_same' _ _ _ (length_hashQ _ _), v.hash_bytes hv o]

example : AlignedHash sampleHashEnv sampleHash ∧ ValidHash sampleHashEnv sampleHash := ⟨sampleHash_aligned, sampleHash_valid⟩

/-- **C46** fails for the six implementations: on a big-endian platform, for an all-zero key and nonce and no data, they produce
a tag different from that of the reference implementation on the same platform. -/
theorem C46_not (v : PortableA) : ∃ (e : Env) (s s1 s2 : St) (a : EncArgs), ValidEnc e a ∧
    Runs ((v.aead .big).encrypt a) e s 0 s1 ∧ Runs ((asconRefIn .big ParamSet.a128a.cfg).encrypt a) e s 0 s2 ∧
    bytesAt s1 a.c (a.mlen + 16) ≠ bytesAt s2 a.c (a.mlen + 16) := by
  obtain ⟨s2, h2, -, hc2⟩ := C46_encrypt_partial (o := .big) (Or.inl rfl : Ascons .a128a) (s := zeroSt) emptyEnc_valid
  have hk : bytesAt zeroSt emptyEnc.k 16 = zeros 16 := zero_bytes _ _
  have hn : bytesAt zeroSt emptyEnc.npub 16 = zeros 16 := zero_bytes _ _
  obtain ⟨s1, h1, -, hc1, -⟩ := v.encrypts .big (s := zeroSt) emptyEnc_valid
    (Limits.enc_tolerant rfl (by decide) (by decide) fun i hi => absurd hi (Nat.not_lt_zero i))
  refine ⟨Sample.env, zeroSt, s1, s2, emptyEnc, emptyEnc_valid, h1, h2, ?_⟩
  have he : ∀ P : Params, P.encrypt (zeros 16) (zeros 16) [] [] = P.mac (zeros 16) (zeros 16) [] [] := fun P => by
    have h : P.enc (zeros 16) (zeros 16) [] = [] := List.length_eq_zero_iff.1 (by simp)
    rw [Params.encrypt, h, List.nil_append]
  have hA : bytesAt zeroSt emptyEnc.ad emptyEnc.adlen = [] := rfl
  have hM : bytesAt zeroSt emptyEnc.m emptyEnc.mlen = [] := rfl
  rw [hc1, hc2, hk, hn, hA, hM, he, he]
  exact v.tag_ne

/-- **C46** fails for `crypto_hash` of the other four: on a big-endian platform the digest of the empty string is wrong. -/
theorem C46_not_hash (v : PortableA) (hv : ¬ ByBytes v) : ∃ (e : Env) (a : HashArgs) (s s' : St), ValidHash e a ∧
    Runs (v.hash .big a.out a.inp a.inlen) e s 0 s' ∧ bytesAt s' a.out 32 ≠ AsconHash.hash (bytesAt s a.inp a.inlen) := by
  let a : HashArgs := { sampleHash with inlen := 0 }
  have V : ValidHash sampleHashEnv a :=
    { inp := fun i hi => absurd hi (Nat.not_lt_zero i), out := sampleHash_valid.out, inlen_lt := by decide }
  refine ⟨sampleHashEnv, a, zeroSt, _, V, v.runs_hash .big ⟨.tolerant rfl .., .tolerant rfl ..⟩ V _, ?_⟩
  rw [bytesAt_putBytes_same' _ _ _ (length_hashQ _ _)]
  exact v.digest_ne hv

example : ¬ ByBytes .opt64 ∧ ¬ ByBytes .opt32 ∧ ¬ ByBytes .opt32Compact ∧ ¬ ByBytes .opt32Tiny := by
  simp [ByBytes]

end Props
