import Verif.Proof.Calls
import Verif.Props.Sample
/-!
# Properties of single calls of `crypto_aead_encrypt` and `crypto_aead_decrypt`

`t : Target` ranges over the implementations.  `Runs f e s r s'`: the call `f` ends normally from state `s` with return value
`r` in state `s'`.  `bytesAt s p n` are the `n` bytes at `p`.
-/

namespace Props
open C Model Spec

/-- **C01** Decrypting an honest ciphertext returns the message.  The decryption may happen in another environment, at other
addresses and later (`s2` is any state that still holds the same key, nonce, associated data and the whole output). -/
theorem C01_round_trip (t : Target) (e e' : Env) (s s1 s2 : St) (a : EncArgs) (d : DecArgs) (r : Int)
    (V : ValidEnc e a) (L : t.limits.Enc e a) (V' : ValidDec e' d) (L' : t.limits.Dec e' d)
    (h : Runs (t.aead.encrypt a) e s r s1)
    (hk : bytesAt s2 d.k 16 = bytesAt s a.k 16)
    (hn : bytesAt s2 d.npub 16 = bytesAt s a.npub 16)
    (had : bytesAt s2 d.ad d.adlen = bytesAt s a.ad a.adlen)
    (hlen : d.clen = (le64 (bytesAt s1 a.clen 8)).toNat)
    (hc : bytesAt s2 d.c d.clen = bytesAt s1 a.c d.clen) :
    ∃ s3, Runs (t.aead.decrypt d) e' s2 0 s3 ∧
      (le64 (bytesAt s3 d.mlen 8)).toNat = a.mlen ∧
      bytesAt s3 d.m a.mlen = bytesAt s a.m a.mlen := by
  have hcl : d.clen = a.mlen + 16 := by
    rw [hlen, enc_clen V L h, le64_toLe64, BitVec.toNat_ofNat, Nat.mod_eq_of_lt V.mlen_lt]
  rw [hcl, enc_c V L h, ← hcl] at hc
  obtain ⟨hacc, hp⟩ := accepts_of_encrypt (by omega) hk hn had hc
  obtain ⟨s3, hr, hm⟩ := dec_accept V' L' hacc
  obtain ⟨h1, h2⟩ := dec_m V' hm
  refine ⟨s3, hr, ?_, ?_⟩
  · rw [h2, le64_toLe64, BitVec.toNat_ofNat, Nat.mod_eq_of_lt (by have := V.mlen_lt; omega)]; omega
  · rw [← hp, ← h1, hcl]; rfl

/-- The hypotheses of C01 are met, for every implementation, by decrypting directly after encrypting. -/
example (t : Target) : ∃ s1, Runs (t.aead.encrypt Sample.enc) Sample.env Sample.st 0 s1 ∧
    bytesAt s1 Sample.dec.k 16 = bytesAt Sample.st Sample.enc.k 16 ∧
    bytesAt s1 Sample.dec.npub 16 = bytesAt Sample.st Sample.enc.npub 16 ∧
    bytesAt s1 Sample.dec.ad Sample.dec.adlen = bytesAt Sample.st Sample.enc.ad Sample.enc.adlen ∧
    Sample.dec.clen = (le64 (bytesAt s1 Sample.enc.clen 8)).toNat ∧
    bytesAt s1 Sample.dec.c Sample.dec.clen = bytesAt s1 Sample.enc.c Sample.dec.clen := by
  obtain ⟨s1, h, hm⟩ := t.encryptOK _ Sample.st _ Sample.validEnc (Sample.limitsEnc t)
  have fr : ∀ (p : Ptr) (n : Nat), p.blk ≠ 0 → p.blk ≠ 1 → bytesAt s1 p n = bytesAt Sample.st p n := by
    intro p n h0 h1
    unfold bytesAt
    apply List.map_congr_left
    intro i _
    exact enc_frame Sample.validEnc (Sample.limitsEnc t) h (fun hh => h0 hh.1) (fun hh => h1 hh.1)
  refine ⟨s1, h, fr _ _ (by decide) (by decide), fr _ _ (by decide) (by decide), fr _ _ (by decide) (by decide), ?_, rfl⟩
  rw [enc_clen Sample.validEnc (Sample.limitsEnc t) h]
  decide

/-- **C02** Encryption returns 0 (in particular it terminates without undefined behaviour), stores the length `mlen + 16`, and
stores a body of `mlen` bytes followed by a tag of 16 bytes; for the implementations that conform to their parameter set these
are the ciphertext and tag of ISAP. -/
theorem C02_encrypt_succeeds (t : Target) (e : Env) (s : St) (a : EncArgs) (V : ValidEnc e a) (L : t.limits.Enc e a) :
    ∃ s', Runs (t.aead.encrypt a) e s 0 s' ∧
      (le64 (bytesAt s' a.clen 8)).toNat = a.mlen + 16 ∧
      (t.conforming = true →
        bytesAt s' a.c a.mlen = t.set.spec.enc (bytesAt s a.k 16) (bytesAt s a.npub 16) (bytesAt s a.m a.mlen) ∧
        bytesAt s' (a.c + a.mlen) 16 = t.set.spec.mac (bytesAt s a.k 16) (bytesAt s a.npub 16) (bytesAt s a.ad a.adlen)
          (bytesAt s' a.c a.mlen)) := by
  obtain ⟨s', h, -⟩ := t.encryptOK e s a V L
  refine ⟨s', h, ?_, ?_⟩
  · rw [enc_clen V L h, le64_toLe64, BitVec.toNat_ofNat, Nat.mod_eq_of_lt V.mlen_lt]
  · intro hc
    have hb := enc_c V L h
    rw [bytesAt_add, Target.out, t.spec_eq hc, Params.encrypt] at hb
    obtain ⟨h1, h2⟩ := List.append_inj hb (by simp)
    exact ⟨h1, by rw [h2, h1]⟩

example (t : Target) : ValidEnc Sample.env Sample.enc ∧ t.limits.Enc Sample.env Sample.enc :=
  ⟨Sample.validEnc, Sample.limitsEnc t⟩

/-- **C03** Decryption returns 0 or -1, and 0 exactly if the last 16 bytes are the ISAP tag of nonce, associated data and body
(implementations other than stp, for which see C17; bi_32_armv7m does not compute the ISAP tag, see `C03_not_armv7m`). -/
theorem C03_accepts_iff_tag_partial (t : Target) (hstp : t.stp = false) (hc : t.conforming = true) (e : Env) (s : St) (d : DecArgs)
    (V : ValidDec e d) (L : t.limits.Dec e d) :
    ∃ r s', Runs (t.aead.decrypt d) e s r s' ∧ (r = 0 ∨ r = -1) ∧
      (r = 0 ↔ bytesAt s (d.c + (d.clen - 16)) 16 =
        t.set.spec.mac (bytesAt s d.k 16) (bytesAt s d.npub 16) (bytesAt s d.ad d.adlen) (bytesAt s d.c (d.clen - 16))) := by
  obtain ⟨r, s', h⟩ := dec_exists V L s
  have hacc : t.accepts s d ↔ bytesAt s (d.c + (d.clen - 16)) 16 =
        t.set.spec.mac (bytesAt s d.k 16) (bytesAt s d.npub 16) (bytesAt s d.ad d.adlen) (bytesAt s d.c (d.clen - 16)) := by
    rw [Target.accepts, Target.acc, if_neg (by rw [hstp]; decide), t.spec_eq hc]
  refine ⟨r, s', h, ?_⟩
  rcases dec_run V L h with ⟨h1, rfl, _⟩ | ⟨h1, rfl, _⟩
  · exact ⟨Or.inl rfl, fun _ => hacc.1 h1, fun _ => rfl⟩
  · exact ⟨Or.inr rfl, fun h => absurd h (by decide), fun h => absurd (hacc.2 h) h1⟩

/-- **C03**, all implementations: the return value is 0 or -1. -/
theorem C03_return_value (t : Target) (e : Env) (s : St) (d : DecArgs) (V : ValidDec e d) (L : t.limits.Dec e d) :
    ∃ r s', Runs (t.aead.decrypt d) e s r s' ∧ (r = 0 ∨ r = -1) := by
  obtain ⟨r, s', h⟩ := dec_exists V L s
  refine ⟨r, s', h, ?_⟩
  rcases dec_run V L h with ⟨_, rfl, _⟩ | ⟨_, rfl, _⟩
  · exact Or.inl rfl
  · exact Or.inr rfl

example (t : Target) : ValidDec Sample.env Sample.dec ∧ t.limits.Dec Sample.env Sample.dec :=
  ⟨Sample.validDec, Sample.limitsDec t⟩

/-- **C04** No unverified plaintext is released: if decryption returns anything but 0, it returns -1 and all memory except the
length cell is as before. -/
theorem C04_no_unverified_plaintext (t : Target) (e : Env) (s s' : St) (d : DecArgs) (r : Int)
    (V : ValidDec e d) (L : t.limits.Dec e d) (h : Runs (t.aead.decrypt d) e s r s') (hr : r ≠ 0) :
    r = -1 ∧ ∀ b o, ¬ InBuf d.mlen 8 b o → s'.mem b o = s.mem b o := by
  rcases dec_run V L h with ⟨_, rfl, _⟩ | ⟨_, rfl, hm⟩
  · exact absurd rfl hr
  · refine ⟨rfl, fun b o hb => ?_⟩
    rw [hm, putBytes_frame (by simp) hb]

/-- A call allowed to write the length cell only. -/
def onlyCell (e : Env) (p : Ptr) : Env := { e with wr := fun b o => e.wr b o && decide (InBuf p 8 b o) }

/-- **C04**, stronger: such a call does not write anywhere but to the length cell, not even temporarily. -/
theorem C04_no_write (t : Target) (e : Env) (s s' : St) (d : DecArgs) (r : Int) (tr : List Ev)
    (V : ValidDec e d) (L : t.limits.Dec e d) (h : run (t.aead.decrypt d) e s = .ok r s' tr) (hr : r ≠ 0)
    (p : Ptr) (w : Nat) (hw : .wr p w ∈ tr) (i : Nat) (hi : i < w) : InBuf d.mlen 8 p.blk (p.off + i) := by
  have hacc : ¬ t.accepts s d := by
    rcases dec_run V L ⟨tr, h⟩ with ⟨_, h1, _⟩ | ⟨h1, _, _⟩
    · exact absurd h1 hr
    · exact h1
  have hle : EnvLe (onlyCell e d.mlen) e :=
    ⟨fun _ _ h => h, fun b o h => by simp only [onlyCell, Bool.and_eq_true] at h; exact h.1, rfl, rfl⟩
  have V2 : ValidDecIn (onlyCell e d.mlen) d :=
    { V.toValidDecIn with
      k := V.k, npub := V.npub, ad := V.ad, c := V.c
      mlen := fun i hi => ⟨(V.mlen i hi).1, by
        simp only [onlyCell, Bool.and_eq_true]
        exact ⟨(V.mlen i hi).2, decide_eq_true ⟨rfl, by omega, by omega⟩⟩⟩ }
  obtain ⟨s2, ⟨tr2, h2⟩, _⟩ := dec_reject (t := t) (s := s) V2 ⟨L.k, L.npub, L.ad, L.m, L.c, L.adlen_lt, L.clen_lt, L.over⟩ hacc
  have h3 := run_mono hle _ h2
  rw [h] at h3
  injection h3 with _ _ h4
  subst h4
  have := (run_evIn _ h2 _ hw i hi).2
  simp only [onlyCell, Bool.and_eq_true] at this
  exact of_decide_eq_true this.2

/-- The hypotheses of C04 are met: some tag makes decryption of the sample call return -1. -/
example : ∃ s s', Runs ((Target.ref .a128a).aead.decrypt Sample.dec) Sample.env s (-1) s' := by
  let t := Target.ref .a128a
  let T := t.spec.mac (bytesAt Sample.st ⟨5, 0⟩ 16) (bytesAt Sample.st ⟨4, 0⟩ 16) (bytesAt Sample.st ⟨3, 0⟩ 20)
    (bytesAt Sample.st ⟨0, 0⟩ 3)
  let s : St := { Sample.st with mem := fun b o => if b = 0 ∧ o = 3 then T.getD 0 0 ^^^ 1 else Sample.st.mem b o }
  refine ⟨s, ?_⟩
  have hna : ¬ t.accepts s Sample.dec := by
    intro h
    have h : bytesAt s ⟨0, 3⟩ 16 = t.spec.mac (bytesAt s ⟨5, 0⟩ 16) (bytesAt s ⟨4, 0⟩ 16) (bytesAt s ⟨3, 0⟩ 20)
      (bytesAt s ⟨0, 0⟩ 3) := h
    have e1 : ∀ b n, b ≠ 0 → bytesAt s ⟨b, 0⟩ n = bytesAt Sample.st ⟨b, 0⟩ n := by
      intro b n hb
      simp [bytesAt, s, hb]
    have e2 : bytesAt s ⟨0, 0⟩ 3 = bytesAt Sample.st ⟨0, 0⟩ 3 := by
      apply List.map_congr_left
      intro i hi
      have := List.mem_range.1 hi
      show (if _ then _ else _) = _
      rw [if_neg]
      show ¬ (0 = 0 ∧ 0 + i = 3)
      omega
    rw [e1 _ _ (by decide), e1 _ _ (by decide), e1 _ _ (by decide), e2] at h
    have h := congrArg (·.getD 0 0) h
    have h : T.getD 0 0 ^^^ 1 = T.getD 0 0 := h
    generalize T.getD 0 0 = x at h
    revert x
    decide
  obtain ⟨s', h, _⟩ := dec_reject Sample.validDec.toValidDecIn (Sample.limitsDec t) hna
  exact ⟨s', h⟩

/-- **C05** Exactly one tag is accepted: two calls (possibly at different addresses) that agree on key, nonce, associated data
and body and are both accepted have the same tag.  (Not the stp variants.) -/
theorem C05_tag_change_rejected (t : Target) (hstp : t.stp = false) (e1 e2 : Env) (s1 s2 s1' s2' : St) (d1 d2 : DecArgs)
    (V1 : ValidDec e1 d1) (L1 : t.limits.Dec e1 d1) (V2 : ValidDec e2 d2) (L2 : t.limits.Dec e2 d2)
    (hk : bytesAt s1 d1.k 16 = bytesAt s2 d2.k 16) (hn : bytesAt s1 d1.npub 16 = bytesAt s2 d2.npub 16)
    (had : bytesAt s1 d1.ad d1.adlen = bytesAt s2 d2.ad d2.adlen)
    (hc : bytesAt s1 d1.c (d1.clen - 16) = bytesAt s2 d2.c (d2.clen - 16))
    (h1 : Runs (t.aead.decrypt d1) e1 s1 0 s1') (h2 : Runs (t.aead.decrypt d2) e2 s2 0 s2') :
    bytesAt s1 (d1.c + (d1.clen - 16)) 16 = bytesAt s2 (d2.c + (d2.clen - 16)) 16 := by
  have a1 := (dec_zero V1 L1 h1).1
  have a2 := (dec_zero V2 L2 h2).1
  rw [Target.accepts, Target.acc, if_neg (by rw [hstp]; decide)] at a1 a2
  rw [a1, a2, hk, hn, had, hc]

/-- **C05**: and that tag exists: for all key, nonce, associated data and body there is a tag that is accepted (all
implementations). -/
theorem C05_some_tag_accepted (t : Target) (e : Env) (s : St) (d : DecArgs) (V : ValidDec e d) (L : t.limits.Dec e d)
    (hk : Disjoint d.c d.clen d.k 16) (hn : Disjoint d.c d.clen d.npub 16) (had : Disjoint d.c d.clen d.ad d.adlen) :
    ∃ T s', T.length = 16 ∧ Runs (t.aead.decrypt d) e (putBytes s (d.c + (d.clen - 16)) T) 0 s' := by
  have hge := V.clen_ge
  refine ⟨t.spec.mac (bytesAt s d.k 16) (bytesAt s d.npub 16) (bytesAt s d.ad d.adlen) (bytesAt s d.c (d.clen - 16)), ?_⟩
  generalize hT : t.spec.mac _ _ _ _ = T
  have hl : T.length = 16 := by rw [← hT, Params.length_mac t.wf _ _ (by simp) (by simp)]
  have fr : ∀ p n, Disjoint d.c d.clen p n →
      bytesAt (putBytes s (d.c + (d.clen - 16)) T) p n = bytesAt s p n := by
    intro p n h
    apply bytesAt_putBytes_disjoint
    unfold Disjoint at *
    simp only [add_blk, add_off]; omega
  have frc : bytesAt (putBytes s (d.c + (d.clen - 16)) T) d.c (d.clen - 16) = bytesAt s d.c (d.clen - 16) := by
    apply bytesAt_putBytes_disjoint
    unfold Disjoint
    simp only [add_blk, add_off]; omega
  have hacc : t.accepts (putBytes s (d.c + (d.clen - 16)) T) d := by
    unfold Target.accepts
    rw [fr _ _ hk, fr _ _ hn, fr _ _ had, frc, bytesAt_putBytes_same' _ _ _ hl, ← hT]
    exact acc_mac _ _ _ _ _
  obtain ⟨s', h, _⟩ := dec_accept V L hacc
  exact ⟨s', hl, h⟩

example : Disjoint Sample.dec.c Sample.dec.clen Sample.dec.k 16 ∧ Disjoint Sample.dec.c Sample.dec.clen Sample.dec.npub 16 ∧
    Disjoint Sample.dec.c Sample.dec.clen Sample.dec.ad Sample.dec.adlen := by decide

/-- **C06** Accepted ciphertexts are canonical: if decryption accepts `c`, encrypting the stored plaintext under the same key,
nonce and associated data yields exactly `c`, tag included.  (Not the stp variants.) -/
theorem C06_canonical (t : Target) (hstp : t.stp = false) (e e' : Env) (s s1 s2 s3 : St) (d : DecArgs) (a : EncArgs)
    (r : Int) (V : ValidDec e d) (L : t.limits.Dec e d) (V' : ValidEnc e' a) (L' : t.limits.Enc e' a)
    (h : Runs (t.aead.decrypt d) e s 0 s1)
    (hk : bytesAt s2 a.k 16 = bytesAt s d.k 16)
    (hn : bytesAt s2 a.npub 16 = bytesAt s d.npub 16)
    (had : bytesAt s2 a.ad a.adlen = bytesAt s d.ad d.adlen)
    (hlen : a.mlen = (le64 (bytesAt s1 d.mlen 8)).toNat)
    (hm : bytesAt s2 a.m a.mlen = bytesAt s1 d.m a.mlen)
    (h' : Runs (t.aead.encrypt a) e' s2 r s3) :
    bytesAt s3 a.c (a.mlen + 16) = bytesAt s d.c d.clen := by
  obtain ⟨hacc, hmem⟩ := dec_zero V L h
  obtain ⟨h1, h2⟩ := dec_m V hmem
  have hge := V.clen_ge
  have hml : a.mlen = d.clen - 16 := by
    rw [hlen, h2, le64_toLe64, BitVec.toNat_ofNat, Nat.mod_eq_of_lt (by have := V.clen_lt; omega)]
  rw [enc_c V' L' h', Target.out, hk, hn, had, hm, hml, h1, Target.plain, bytesAt_split hge, Params.encrypt, Params.enc_enc]
  rw [Target.accepts, Target.acc, if_neg (by rw [hstp]; decide)] at hacc
  rw [hacc]

/-- **C06**, consequence: two ciphertexts of the same length that are accepted under the same key, nonce and associated data
and decrypt to the same message are equal. -/
theorem C06_unique_ciphertext (t : Target) (hstp : t.stp = false) (e1 e2 : Env) (s1 s2 s1' s2' : St) (d1 d2 : DecArgs)
    (V1 : ValidDec e1 d1) (L1 : t.limits.Dec e1 d1) (V2 : ValidDec e2 d2) (L2 : t.limits.Dec e2 d2)
    (hk : bytesAt s1 d1.k 16 = bytesAt s2 d2.k 16) (hn : bytesAt s1 d1.npub 16 = bytesAt s2 d2.npub 16)
    (had : bytesAt s1 d1.ad d1.adlen = bytesAt s2 d2.ad d2.adlen)
    (h1 : Runs (t.aead.decrypt d1) e1 s1 0 s1') (h2 : Runs (t.aead.decrypt d2) e2 s2 0 s2')
    (hlen : bytesAt s1' d1.mlen 8 = bytesAt s2' d2.mlen 8)
    (hm : bytesAt s1' d1.m (d1.clen - 16) = bytesAt s2' d2.m (d1.clen - 16)) :
    bytesAt s1 d1.c d1.clen = bytesAt s2 d2.c d2.clen := by
  obtain ⟨a1, m1⟩ := dec_zero V1 L1 h1
  obtain ⟨a2, m2⟩ := dec_zero V2 L2 h2
  obtain ⟨p1, l1⟩ := dec_m V1 m1
  obtain ⟨p2, l2⟩ := dec_m V2 m2
  have hl : d1.clen - 16 = d2.clen - 16 := by
    have := congrArg BitVec.toNat (toLe64_inj (l1 ▸ l2 ▸ hlen))
    rwa [BitVec.toNat_ofNat, BitVec.toNat_ofNat, Nat.mod_eq_of_lt (by have := V1.clen_lt; omega),
      Nat.mod_eq_of_lt (by have := V2.clen_lt; omega)] at this
  have hb : bytesAt s1 d1.c (d1.clen - 16) = bytesAt s2 d2.c (d2.clen - 16) := by
    have hm' : t.plain s1 d1 = t.plain s2 d2 := by rw [← p1, ← p2, hm, hl]
    have := congrArg (t.spec.enc (bytesAt s1 d1.k 16) (bytesAt s1 d1.npub 16)) hm'
    rwa [Target.plain, Target.plain, hk, hn, Params.enc_enc, Params.enc_enc] at this
  rw [bytesAt_split V1.clen_ge, bytesAt_split V2.clen_ge,
    C05_tag_change_rejected t hstp e1 e2 s1 s2 s1' s2' d1 d2 V1 L1 V2 L2 hk hn had hb h1 h2, hb]

/-- The hypotheses of C05 and C06 are met: the sample call is accepted for some contents of the memory. -/
example (t : Target) : ∃ s s', Runs (t.aead.decrypt Sample.dec) Sample.env s 0 s' := by
  obtain ⟨T, s', _, h⟩ := C05_some_tag_accepted t _ Sample.st _ Sample.validDec (Sample.limitsDec t) (by decide) (by decide)
    (by decide)
  exact ⟨_, s', h⟩

end Props
