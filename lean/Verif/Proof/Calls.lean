import Verif.Proof.Targets
import Verif.Proof.Footprint
/-!
# Consequences of the contracts for single calls
-/

namespace Model
open C Spec

/-- The ciphertext and tag a call of `crypto_aead_encrypt` produces. -/
def Target.out (t : Target) (s : St) (a : EncArgs) : List Byte :=
  t.spec.encrypt (bytesAt s a.k 16) (bytesAt s a.npub 16) (bytesAt s a.ad a.adlen) (bytesAt s a.m a.mlen)

theorem Target.length_out (t : Target) (s : St) (a : EncArgs) : (t.out s a).length = a.mlen + 16 := by
  rw [Target.out, Params.encrypt]
  simp only [List.length_append, Params.length_enc, length_bytesAt]
  rw [Params.length_mac t.wf _ _ (by simp) (by simp)]

/-- The test made by a call of `crypto_aead_decrypt`. -/
def Target.accepts (t : Target) (s : St) (a : DecArgs) : Prop :=
  t.acc (bytesAt s a.k 16) (bytesAt s a.npub 16) (bytesAt s a.ad a.adlen) (bytesAt s a.c (a.clen - 16))
    (bytesAt s (a.c + (a.clen - 16)) 16)

/-- The plaintext a call of `crypto_aead_decrypt` would store. -/
def Target.plain (t : Target) (s : St) (a : DecArgs) : List Byte :=
  t.spec.enc (bytesAt s a.k 16) (bytesAt s a.npub 16) (bytesAt s a.c (a.clen - 16))

theorem Target.length_plain (t : Target) (s : St) (a : DecArgs) : (t.plain s a).length = a.clen - 16 := by
  simp [Target.plain]

section enc
variable {t : Target} {e : Env} {s s' : St} {a : EncArgs} {r : Int}

theorem enc_run (V : ValidEnc e a) (L : t.limits.Enc e a) (h : Runs (t.aead.encrypt a) e s r s') :
    r = 0 ∧ s'.mem = (putBytes (putBytes s a.clen (toLe64 (BitVec.ofNat 64 (a.mlen + 16)))) a.c (t.out s a)).mem := by
  obtain ⟨s2, h2, hm⟩ := t.encryptOK e s a V L
  obtain ⟨rfl, rfl⟩ := h.det h2
  exact ⟨rfl, hm⟩

theorem enc_c (V : ValidEnc e a) (L : t.limits.Enc e a) (h : Runs (t.aead.encrypt a) e s r s') :
    bytesAt s' a.c (a.mlen + 16) = t.out s a := by
  rw [bytesAt_mem_congr (enc_run V L h).2, bytesAt_putBytes_same' _ _ _ (t.length_out s a)]

theorem enc_clen (V : ValidEnc e a) (L : t.limits.Enc e a) (h : Runs (t.aead.encrypt a) e s r s') :
    bytesAt s' a.clen 8 = toLe64 (BitVec.ofNat 64 (a.mlen + 16)) := by
  rw [bytesAt_mem_congr (enc_run V L h).2, bytesAt_putBytes_disjoint, bytesAt_putBytes_same' _ _ _ (by simp)]
  rw [t.length_out]; exact V.clen_c

theorem putBytes_frame {s : St} {p : Ptr} {bs : List Byte} {n b o : Nat} (hn : bs.length = n) (h : ¬ InBuf p n b o) :
    (putBytes s p bs).mem b o = s.mem b o := by
  subst hn
  rw [putBytes_mem]; exact if_neg h

theorem enc_frame (V : ValidEnc e a) (L : t.limits.Enc e a) (h : Runs (t.aead.encrypt a) e s r s') {b o : Nat}
    (h1 : ¬ InBuf a.c (a.mlen + 16) b o) (h2 : ¬ InBuf a.clen 8 b o) : s'.mem b o = s.mem b o := by
  rw [(enc_run V L h).2, putBytes_frame (t.length_out s a) h1, putBytes_frame (by simp) h2]

end enc

section dec
variable {t : Target} {e : Env} {s s' : St} {a : DecArgs} {r : Int}

/-- Outcome of a call of `crypto_aead_decrypt`. -/
theorem dec_run (V : ValidDec e a) (L : t.limits.Dec e a) (h : Runs (t.aead.decrypt a) e s r s') :
    (t.accepts s a ∧ r = 0 ∧
      s'.mem = (putBytes (putBytes s a.mlen (toLe64 (BitVec.ofNat 64 (a.clen - 16)))) a.m (t.plain s a)).mem) ∨
    (¬ t.accepts s a ∧ r = -1 ∧ s'.mem = (putBytes s a.mlen (toLe64 (BitVec.ofNat 64 (a.clen - 16)))).mem) := by
  obtain ⟨h1, h2⟩ := t.decryptOK e s a V.toValidDecIn L
  by_cases hacc : t.accepts s a
  · obtain ⟨s2, hr, hm⟩ := h1 hacc V
    obtain ⟨rfl, rfl⟩ := h.det hr
    exact Or.inl ⟨hacc, rfl, hm⟩
  · obtain ⟨s2, hr, hm⟩ := h2 hacc
    obtain ⟨rfl, rfl⟩ := h.det hr
    exact Or.inr ⟨hacc, rfl, hm⟩

theorem dec_exists (V : ValidDec e a) (L : t.limits.Dec e a) (s : St) : ∃ r s', Runs (t.aead.decrypt a) e s r s' := by
  obtain ⟨h1, h2⟩ := t.decryptOK e s a V.toValidDecIn L
  by_cases hacc : t.accepts s a
  · obtain ⟨s2, hr, _⟩ := h1 hacc V
    exact ⟨_, _, hr⟩
  · obtain ⟨s2, hr, _⟩ := h2 hacc
    exact ⟨_, _, hr⟩

theorem dec_accept (V : ValidDec e a) (L : t.limits.Dec e a) (hacc : t.accepts s a) :
    ∃ s', Runs (t.aead.decrypt a) e s 0 s' ∧
      s'.mem = (putBytes (putBytes s a.mlen (toLe64 (BitVec.ofNat 64 (a.clen - 16)))) a.m (t.plain s a)).mem :=
  (t.decryptOK e s a V.toValidDecIn L).1 hacc V

theorem dec_reject (V : ValidDecIn e a) (L : t.limits.Dec e a) (hacc : ¬ t.accepts s a) :
    ∃ s', Runs (t.aead.decrypt a) e s (-1) s' ∧
      s'.mem = (putBytes s a.mlen (toLe64 (BitVec.ofNat 64 (a.clen - 16)))).mem :=
  (t.decryptOK e s a V L).2 hacc

theorem dec_zero (V : ValidDec e a) (L : t.limits.Dec e a) (h : Runs (t.aead.decrypt a) e s 0 s') :
    t.accepts s a ∧
      s'.mem = (putBytes (putBytes s a.mlen (toLe64 (BitVec.ofNat 64 (a.clen - 16)))) a.m (t.plain s a)).mem := by
  rcases dec_run V L h with ⟨h1, _, h3⟩ | ⟨_, h2, _⟩
  · exact ⟨h1, h3⟩
  · exact absurd h2 (by decide)

/-- Memory after an accepting call. -/
theorem dec_m (V : ValidDec e a) (hm : s'.mem =
      (putBytes (putBytes s a.mlen (toLe64 (BitVec.ofNat 64 (a.clen - 16)))) a.m (t.plain s a)).mem) :
    bytesAt s' a.m (a.clen - 16) = t.plain s a ∧
    bytesAt s' a.mlen 8 = toLe64 (BitVec.ofNat 64 (a.clen - 16)) := by
  constructor
  · rw [bytesAt_mem_congr hm, bytesAt_putBytes_same' _ _ _ (t.length_plain s a)]
  · rw [bytesAt_mem_congr hm, bytesAt_putBytes_disjoint, bytesAt_putBytes_same' _ _ _ (by simp)]
    rw [t.length_plain]; exact V.mlen_m

/-- A rejecting call leaves everything but the length cell alone; this does not need a writable plaintext buffer. -/
theorem dec_reject_run (V : ValidDecIn e a) (L : t.limits.Dec e a) (hacc : ¬ t.accepts s a)
    (h : Runs (t.aead.decrypt a) e s r s') :
    r = -1 ∧ s'.mem = (putBytes s a.mlen (toLe64 (BitVec.ofNat 64 (a.clen - 16)))).mem := by
  obtain ⟨s2, hr, hm⟩ := dec_reject V L hacc
  obtain ⟨rfl, rfl⟩ := h.det hr
  exact ⟨rfl, hm⟩

end dec

theorem acc_mac (t : Target) (K N A C : List Byte) : t.acc K N A C (t.spec.mac K N A C) := by
  unfold Target.acc
  split
  · exact rfl
  · rfl

/-- The last 16 and the first bytes of a ciphertext buffer. -/
theorem bytesAt_split {s : St} {c : Ptr} {clen : Nat} (h : 16 ≤ clen) :
    bytesAt s c clen = bytesAt s c (clen - 16) ++ bytesAt s (c + (clen - 16)) 16 := by
  conv => lhs; rw [show clen = (clen - 16) + 16 by omega]
  exact bytesAt_add s c _ 16

/-- A buffer that holds the output of encryption is accepted and decrypts to the message. -/
theorem accepts_of_encrypt {t : Target} {s : St} {d : DecArgs} (h : 16 ≤ d.clen) {K N A M : List Byte}
    (hk : bytesAt s d.k 16 = K) (hn : bytesAt s d.npub 16 = N) (ha : bytesAt s d.ad d.adlen = A)
    (hc : bytesAt s d.c d.clen = t.spec.encrypt K N A M) : t.accepts s d ∧ t.plain s d = M := by
  have hl := congrArg List.length hc
  have hN : N.length = 16 := by rw [← hn]; simp
  have hK : K.length = 16 := by rw [← hk]; simp
  simp only [Params.encrypt, List.length_append, Params.length_enc, length_bytesAt] at hl
  rw [Params.length_mac t.wf _ _ hK hN] at hl
  rw [bytesAt_split h, Params.encrypt] at hc
  obtain ⟨h1, h2⟩ := List.append_inj hc (by simp; omega)
  unfold Target.accepts Target.plain
  rw [hk, hn, ha, h1, h2, Params.enc_enc]
  exact ⟨acc_mac _ _ _ _ _, rfl⟩

end Model
