import Verif.Proof.Calls
import Verif.Props.Sample
/-!
# Memory effects of `crypto_aead_encrypt` and `crypto_aead_decrypt`
-/

namespace Props
open C Model Spec

/-- The byte belongs to one of the buffers passed to `crypto_aead_encrypt`, of exactly the documented sizes. -/
def EncBuf (a : EncArgs) (b o : Nat) : Prop :=
  InBuf a.k 16 b o ∨ InBuf a.npub 16 b o ∨ InBuf a.ad a.adlen b o ∨ InBuf a.m a.mlen b o ∨
  InBuf a.c (a.mlen + 16) b o ∨ InBuf a.clen 8 b o

/-- The byte belongs to an output buffer of `crypto_aead_encrypt`. -/
def EncOut (a : EncArgs) (b o : Nat) : Prop := InBuf a.c (a.mlen + 16) b o ∨ InBuf a.clen 8 b o

/-- The byte belongs to one of the buffers passed to `crypto_aead_decrypt`. -/
def DecBuf (d : DecArgs) (b o : Nat) : Prop :=
  InBuf d.k 16 b o ∨ InBuf d.npub 16 b o ∨ InBuf d.ad d.adlen b o ∨ InBuf d.c d.clen b o ∨
  InBuf d.m (d.clen - 16) b o ∨ InBuf d.mlen 8 b o

/-- The byte belongs to an output buffer of `crypto_aead_decrypt`. -/
def DecOut (d : DecArgs) (b o : Nat) : Prop := InBuf d.m (d.clen - 16) b o ∨ InBuf d.mlen 8 b o

instance : Decidable (EncBuf a b o) := by unfold EncBuf; infer_instance
instance : Decidable (EncOut a b o) := by unfold EncOut; infer_instance
instance : Decidable (DecBuf a b o) := by unfold DecBuf; infer_instance
instance : Decidable (DecOut a b o) := by unfold DecOut; infer_instance

/-- All accesses recorded in the trace `tr` stay inside `R` (reads) and `W` (writes). -/
def Within (R W : Nat → Nat → Prop) (tr : List Ev) : Prop :=
  (∀ p w, .rd p w ∈ tr → ∀ i, i < w → R p.blk (p.off + i)) ∧
  (∀ p w, .wr p w ∈ tr → ∀ i, i < w → W p.blk (p.off + i))

/-- `e` with less memory. -/
def restrict (e : Env) (R W : Nat → Nat → Prop) [∀ b o, Decidable (R b o)] [∀ b o, Decidable (W b o)] : Env :=
  { e with rd := fun b o => e.rd b o && decide (R b o), wr := fun b o => e.wr b o && decide (W b o) }

section
variable {e : Env} {R W : Nat → Nat → Prop} [∀ b o, Decidable (R b o)] [∀ b o, Decidable (W b o)]

theorem restrict_le : EnvLe (restrict e R W) e :=
  ⟨fun _ _ h => by simp only [restrict, Bool.and_eq_true] at h; exact h.1,
   fun _ _ h => by simp only [restrict, Bool.and_eq_true] at h; exact h.1, rfl, rfl⟩

theorem restrict_readable {p : Ptr} {n : Nat} (h : Readable e p n) (hR : ∀ b o, InBuf p n b o → R b o) :
    Readable (restrict e R W) p n := fun i hi => by
  simp only [restrict, Bool.and_eq_true]
  exact ⟨h i hi, decide_eq_true (hR _ _ ⟨rfl, by omega, by omega⟩)⟩

theorem restrict_writable {p : Ptr} {n : Nat} (h : Writable e p n) (hR : ∀ b o, InBuf p n b o → R b o)
    (hW : ∀ b o, InBuf p n b o → W b o) : Writable (restrict e R W) p n := fun i hi => by
  simp only [restrict, Bool.and_eq_true]
  exact ⟨⟨(h i hi).1, decide_eq_true (hR _ _ ⟨rfl, by omega, by omega⟩)⟩,
    ⟨(h i hi).2, decide_eq_true (hW _ _ ⟨rfl, by omega, by omega⟩)⟩⟩

/-- A run that succeeds with less memory stays inside that memory. -/
theorem within_of_restrict {f : CM α} {s s' : St} {a : α} (h : Runs f (restrict e R W) s a s') :
    ∃ tr, run f e s = .ok a s' tr ∧ Within R W tr := by
  obtain ⟨tr, h⟩ := h
  refine ⟨tr, run_mono restrict_le _ h, fun p w hp i hi => ?_, fun p w hp i hi => ?_⟩
  · have := run_evIn _ h _ hp i hi
    simp only [restrict, Bool.and_eq_true] at this
    exact of_decide_eq_true this.2
  · have := (run_evIn _ h _ hp i hi).2
    simp only [restrict, Bool.and_eq_true] at this
    exact of_decide_eq_true this.2
end

/-- **C09** With buffers of the documented sizes, encryption ends normally (no undefined behaviour, no failed assertion) and
every byte it reads or writes lies in these buffers; all writes are to the outputs. -/
theorem C09_encrypt_in_bounds_partial (t : Target) (e : Env) (s : St) (a : EncArgs)
    (hs : t.limits.ext a.adlen = a.adlen) (V : ValidEnc e a) (L : t.limits.Enc e a) :
    ∃ s' tr, run (t.aead.encrypt a) e s = .ok 0 s' tr ∧ Within (EncBuf a) (EncOut a) tr := by
  have V2 : ValidEnc (restrict e (EncBuf a) (EncOut a)) a :=
    { V with
      k := restrict_readable V.k fun _ _ h => Or.inl h
      npub := restrict_readable V.npub fun _ _ h => Or.inr (Or.inl h)
      ad := restrict_readable V.ad fun _ _ h => Or.inr (Or.inr (Or.inl h))
      m := restrict_readable V.m fun _ _ h => Or.inr (Or.inr (Or.inr (Or.inl h)))
      c := restrict_writable V.c (fun _ _ h => Or.inr (Or.inr (Or.inr (Or.inr (Or.inl h))))) (fun _ _ h => Or.inl h)
      clen := restrict_writable V.clen (fun _ _ h => Or.inr (Or.inr (Or.inr (Or.inr (Or.inr h)))))
        (fun _ _ h => Or.inr h) }
  have L2 : t.limits.Enc (restrict e (EncBuf a) (EncOut a)) a := { L with over := by rw [hs]; exact V2.ad }
  obtain ⟨s', h, _⟩ := t.encryptOK _ s a V2 L2
  obtain ⟨tr, h1, h2⟩ := within_of_restrict h
  exact ⟨s', tr, h1, h2⟩

/-- **C09** The same for decryption. -/
theorem C09_decrypt_in_bounds_partial (t : Target) (e : Env) (s : St) (d : DecArgs)
    (hs : t.limits.ext d.adlen = d.adlen) (V : ValidDec e d) (L : t.limits.Dec e d) :
    ∃ r s' tr, run (t.aead.decrypt d) e s = .ok r s' tr ∧ Within (DecBuf d) (DecOut d) tr := by
  have V2 : ValidDec (restrict e (DecBuf d) (DecOut d)) d :=
    { V with
      k := restrict_readable V.k fun _ _ h => Or.inl h
      npub := restrict_readable V.npub fun _ _ h => Or.inr (Or.inl h)
      ad := restrict_readable V.ad fun _ _ h => Or.inr (Or.inr (Or.inl h))
      c := restrict_readable V.c fun _ _ h => Or.inr (Or.inr (Or.inr (Or.inl h)))
      m := restrict_writable V.m (fun _ _ h => Or.inr (Or.inr (Or.inr (Or.inr (Or.inl h))))) (fun _ _ h => Or.inl h)
      mlen := restrict_writable V.mlen (fun _ _ h => Or.inr (Or.inr (Or.inr (Or.inr (Or.inr h)))))
        (fun _ _ h => Or.inr h) }
  have L2 : t.limits.Dec (restrict e (DecBuf d) (DecOut d)) d := { L with over := by rw [hs]; exact V2.ad }
  obtain ⟨r, s', h⟩ := dec_exists V2 L2 s
  obtain ⟨tr, h1, h2⟩ := within_of_restrict h
  exact ⟨r, s', tr, h1, h2⟩

example (t : Target) : ValidEnc Sample.env Sample.enc ∧ t.limits.Enc Sample.env Sample.enc ∧
    ValidDec Sample.env Sample.dec ∧ t.limits.Dec Sample.env Sample.dec :=
  ⟨Sample.validEnc, Sample.limitsEnc t, Sample.validDec, Sample.limitsDec t⟩

/-- **C10** Encryption changes only the ciphertext buffer and the length cell. -/
theorem C10_encrypt_frame (t : Target) (e : Env) (s s' : St) (a : EncArgs) (r : Int) (V : ValidEnc e a)
    (L : t.limits.Enc e a) (h : Runs (t.aead.encrypt a) e s r s') (b o : Nat) (hb : ¬ EncOut a b o) :
    s'.mem b o = s.mem b o :=
  enc_frame V L h (fun h => hb (Or.inl h)) (fun h => hb (Or.inr h))

/-- **C10** Decryption changes only the plaintext buffer and the length cell. -/
theorem C10_decrypt_frame (t : Target) (e : Env) (s s' : St) (d : DecArgs) (r : Int) (V : ValidDec e d)
    (L : t.limits.Dec e d) (h : Runs (t.aead.decrypt d) e s r s') (b o : Nat) (hb : ¬ DecOut d b o) :
    s'.mem b o = s.mem b o := by
  rcases dec_run V L h with ⟨_, _, hm⟩ | ⟨_, _, hm⟩
  · rw [hm, putBytes_frame (t.length_plain s d) (fun h => hb (Or.inl h)), putBytes_frame (by simp) (fun h => hb (Or.inr h))]
  · rw [hm, putBytes_frame (by simp) (fun h => hb (Or.inr h))]

/-- **C10** In particular the inputs keep their contents. -/
theorem C10_encrypt_keeps_inputs (t : Target) (e : Env) (s s' : St) (a : EncArgs) (r : Int) (V : ValidEnc e a)
    (L : t.limits.Enc e a) (h : Runs (t.aead.encrypt a) e s r s') :
    bytesAt s' a.k 16 = bytesAt s a.k 16 ∧ bytesAt s' a.npub 16 = bytesAt s a.npub 16 ∧
    bytesAt s' a.ad a.adlen = bytesAt s a.ad a.adlen ∧
    (Disjoint a.c (a.mlen + 16) a.m a.mlen → bytesAt s' a.m a.mlen = bytesAt s a.m a.mlen) := by
  have hm := (enc_run V L h).2
  have fr : ∀ p n, Disjoint a.c (a.mlen + 16) p n → Disjoint a.clen 8 p n → bytesAt s' p n = bytesAt s p n := by
    intro p n h1 h2
    rw [bytesAt_mem_congr hm, bytesAt_putBytes_disjoint _ _ _ _ _ (by rw [t.length_out]; exact h1.symm),
      bytesAt_putBytes_disjoint _ _ _ _ _ (by simpa using h2.symm)]
  exact ⟨fr _ _ V.c_k V.clen_k, fr _ _ V.c_npub V.clen_npub, fr _ _ V.c_ad V.clen_ad, fun h => fr _ _ h V.clen_m⟩

/-- **C11** With `adlen = 0` any pointer may be passed as `ad`: the call behaves as with a valid pointer.  Nothing is assumed
about `p`: it may be a null or dangling pointer, that is, no byte of its object may be accessible. -/
theorem C11_encrypt_no_ad (t : Target) (e : Env) (s : St) (a : EncArgs) (V : ValidEnc e a)
    (L : t.limits.Enc e a) (h0 : a.adlen = 0) (p : Ptr) :
    ∃ s1 s2, Runs (t.aead.encrypt a) e s 0 s1 ∧ Runs (t.aead.encrypt { a with ad := p }) e s 0 s2 ∧ s1.mem = s2.mem := by
  obtain ⟨s1, h1, m1⟩ := t.encryptOK e s a V L
  have V2 : ValidEnc e { a with ad := p } :=
    { V with
      ad := fun i hi => by simp only [h0] at hi; omega
      c_ad := Or.inr (Or.inl h0)
      clen_ad := Or.inr (Or.inl h0) }
  obtain ⟨s2, h2, m2⟩ := t.encryptOK e s { a with ad := p } V2
    { L with
      ad := Or.inl h0
      over := fun i hi => by simp only [h0, t.ext_zero] at hi; omega }
  refine ⟨s1, s2, h1, h2, ?_⟩
  rw [m1, m2]
  simp only [h0, bytesAt_zero]

/-- **C11** The same for `m` with `mlen = 0`. -/
theorem C11_encrypt_no_message (t : Target) (e : Env) (s : St) (a : EncArgs) (V : ValidEnc e a)
    (L : t.limits.Enc e a) (h0 : a.mlen = 0) (p : Ptr) :
    ∃ s1 s2, Runs (t.aead.encrypt a) e s 0 s1 ∧ Runs (t.aead.encrypt { a with m := p }) e s 0 s2 ∧ s1.mem = s2.mem := by
  obtain ⟨s1, h1, m1⟩ := t.encryptOK e s a V L
  have V2 : ValidEnc e { a with m := p } :=
    { V with
      m := fun i hi => by simp only [h0] at hi; omega
      c_m := Or.inl h0
      clen_m := Or.inr (Or.inl h0) }
  obtain ⟨s2, h2, m2⟩ := t.encryptOK e s { a with m := p } V2 { L with m := Or.inl h0 }
  refine ⟨s1, s2, h1, h2, ?_⟩
  rw [m1, m2]
  simp only [h0, bytesAt_zero]

/-- **C11** Decryption: any `ad` with `adlen = 0`. -/
theorem C11_decrypt_no_ad (t : Target) (e : Env) (s : St) (d : DecArgs) (V : ValidDec e d)
    (L : t.limits.Dec e d) (h0 : d.adlen = 0) (p : Ptr) :
    ∃ r s1 s2, Runs (t.aead.decrypt d) e s r s1 ∧ Runs (t.aead.decrypt { d with ad := p }) e s r s2 ∧ s1.mem = s2.mem := by
  have V2 : ValidDec e { d with ad := p } :=
    { V with
      ad := fun i hi => by simp only [h0] at hi; omega
      mlen_ad := Or.inr (Or.inl h0) }
  have L2 : t.limits.Dec e { d with ad := p } :=
    { L with
      ad := Or.inl h0
      over := fun i hi => by simp only [h0, t.ext_zero] at hi; omega }
  obtain ⟨r1, s1, h1⟩ := dec_exists V L s
  obtain ⟨r2, s2, h2⟩ := dec_exists V2 L2 s
  have ha : t.accepts s { d with ad := p } = t.accepts s d := by simp only [Target.accepts, h0, bytesAt_zero]
  have hp : t.plain s { d with ad := p } = t.plain s d := rfl
  have c1 := dec_run V L h1
  have c2 := dec_run V2 L2 h2
  rw [ha, hp] at c2
  rcases c1 with ⟨hacc, rfl, m1⟩ | ⟨hacc, rfl, m1⟩ <;> rcases c2 with ⟨hacc2, rfl, m2⟩ | ⟨hacc2, rfl, m2⟩
  · exact ⟨0, s1, s2, h1, h2, by rw [m1, m2]⟩
  · exact absurd hacc hacc2
  · exact absurd hacc2 hacc
  · exact ⟨-1, s1, s2, h1, h2, by rw [m1, m2]⟩

/-- **C11** Decryption of an empty message (`clen = 16`): any `m`. -/
theorem C11_decrypt_no_message (t : Target) (e : Env) (s : St) (d : DecArgs) (V : ValidDec e d)
    (L : t.limits.Dec e d) (h0 : d.clen = 16) (p : Ptr) :
    ∃ r s1 s2, Runs (t.aead.decrypt d) e s r s1 ∧ Runs (t.aead.decrypt { d with m := p }) e s r s2 ∧ s1.mem = s2.mem := by
  have V2 : ValidDec e { d with m := p } :=
    { V with
      m := fun i hi => by simp only [h0] at hi; omega
      m_c := Or.inl (by simp only [h0])
      mlen_m := Or.inr (Or.inl (by simp only [h0])) }
  have L2 : t.limits.Dec e { d with m := p } := { L with m := Or.inl (by simp only [h0]) }
  obtain ⟨r1, s1, h1⟩ := dec_exists V L s
  obtain ⟨r2, s2, h2⟩ := dec_exists (a := { d with m := p }) V2 L2 s
  have ha : t.accepts s { d with m := p } = t.accepts s d := rfl
  have hp : t.plain s { d with m := p } = t.plain s d := rfl
  have hpl : t.plain s d = [] := List.length_eq_zero_iff.1 (by rw [t.length_plain, h0])
  have c1 := dec_run V L h1
  have c2 := dec_run V2 L2 h2
  rw [ha, hp] at c2
  rw [hpl, putBytes_nil] at c1 c2
  rcases c1 with ⟨hacc, rfl, m1⟩ | ⟨hacc, rfl, m1⟩ <;> rcases c2 with ⟨hacc2, rfl, m2⟩ | ⟨hacc2, rfl, m2⟩
  · exact ⟨0, s1, s2, h1, h2, by rw [m1, m2]⟩
  · exact absurd hacc hacc2
  · exact absurd hacc2 hacc
  · exact ⟨-1, s1, s2, h1, h2, by rw [m1, m2]⟩

/-- The hypotheses of C11 are met with pointers to the object 6 that has no accessible byte. -/
example (t : Target) :
    ValidEnc Sample.env { Sample.enc with ad := ⟨6, 0⟩, adlen := 0, m := ⟨6, 0⟩, mlen := 0 } ∧
    t.limits.Enc Sample.env { Sample.enc with ad := ⟨6, 0⟩, adlen := 0, m := ⟨6, 0⟩, mlen := 0 } ∧
    ValidDec Sample.env { Sample.dec with ad := ⟨6, 0⟩, adlen := 0, m := ⟨6, 0⟩, clen := 16 } ∧
    t.limits.Dec Sample.env { Sample.dec with ad := ⟨6, 0⟩, adlen := 0, m := ⟨6, 0⟩, clen := 16 } := by
  have V := Sample.validEnc
  have V' := Sample.validDec
  have hl := (Sample.limits t).1
  have ho : Readable Sample.env ⟨6, 0⟩ (t.limits.ext 0) := by
    rw [t.ext_zero]; exact fun i hi => absurd hi (Nat.not_lt_zero i)
  refine ⟨?_, Limits.enc_tolerant rfl (Nat.lt_trans (by decide) hl) (Nat.lt_trans (by decide) hl) ho, ?_,
    Limits.dec_tolerant rfl (Nat.lt_trans (by decide) hl) (Nat.lt_trans (by decide) hl) ho⟩
  · exact {
      k := V.k, npub := V.npub, ad := fun i hi => absurd hi (Nat.not_lt_zero i), m := fun i hi => absurd hi (Nat.not_lt_zero i)
      c := V.c.mono (by decide), clen := V.clen, adlen_lt := by decide, mlen_lt := by decide, c_m := by decide,
      c_ad := by decide, c_npub := by decide, c_k := by decide, clen_c := by decide, clen_m := by decide, clen_ad := by decide,
      clen_npub := by decide, clen_k := by decide }
  · exact {
      k := V'.k, npub := V'.npub, ad := fun i hi => absurd hi (Nat.not_lt_zero i)
      c := V'.c.mono (by decide), mlen := V'.mlen, adlen_lt := by decide, clen_lt := by decide, clen_ge := by decide
      mlen_c := by decide, mlen_ad := by decide, mlen_npub := by decide, mlen_k := by decide
      m := fun i hi => absurd hi (Nat.not_lt_zero i), m_c := by decide, mlen_m := by decide }

theorem encrypt_anywhere (t : Target) (e e' : Env) (s s' : St) (a b : EncArgs)
    (V : ValidEnc e a) (L : t.limits.Enc e a) (V' : ValidEnc e' b) (L' : t.limits.Enc e' b)
    (hk : bytesAt s a.k 16 = bytesAt s' b.k 16) (hn : bytesAt s a.npub 16 = bytesAt s' b.npub 16)
    (had : bytesAt s a.ad a.adlen = bytesAt s' b.ad b.adlen) (hm : bytesAt s a.m a.mlen = bytesAt s' b.m b.mlen) :
    ∃ s1 s2, Runs (t.aead.encrypt a) e s 0 s1 ∧ Runs (t.aead.encrypt b) e' s' 0 s2 ∧
      bytesAt s1 a.c (a.mlen + 16) = bytesAt s2 b.c (b.mlen + 16) ∧ bytesAt s1 a.clen 8 = bytesAt s2 b.clen 8 := by
  obtain ⟨s1, h1, _⟩ := t.encryptOK e s a V L
  obtain ⟨s2, h2, _⟩ := t.encryptOK e' s' b V' L'
  have hl := congrArg List.length hm
  simp only [length_bytesAt] at hl
  refine ⟨s1, s2, h1, h2, ?_, ?_⟩
  · rw [enc_c V L h1, enc_c V' L' h2, Target.out, Target.out, hk, hn, had, hm]
  · rw [enc_clen V L h1, enc_clen V' L' h2, hl]

/-- **C12** In-place encryption (`c = m`) gives the same ciphertext and the same return value as encryption of the same inputs
into a separate buffer. -/
theorem C12_encrypt_in_place (t : Target) (e e' : Env) (s s' : St) (a b : EncArgs)
    (V : ValidEnc e a) (L : t.limits.Enc e a) (V' : ValidEnc e' b) (L' : t.limits.Enc e' b)
    (_hin : a.c = a.m) (_hsep : Disjoint b.c (b.mlen + 16) b.m b.mlen)
    (hk : bytesAt s a.k 16 = bytesAt s' b.k 16) (hn : bytesAt s a.npub 16 = bytesAt s' b.npub 16)
    (had : bytesAt s a.ad a.adlen = bytesAt s' b.ad b.adlen) (hm : bytesAt s a.m a.mlen = bytesAt s' b.m b.mlen) :
    ∃ s1 s2, Runs (t.aead.encrypt a) e s 0 s1 ∧ Runs (t.aead.encrypt b) e' s' 0 s2 ∧
      bytesAt s1 a.c (a.mlen + 16) = bytesAt s2 b.c (b.mlen + 16) ∧ bytesAt s1 a.clen 8 = bytesAt s2 b.clen 8 :=
  encrypt_anywhere t e e' s s' a b V L V' L' hk hn had hm

theorem decrypt_anywhere (t : Target) (e e' : Env) (s s' : St) (a b : DecArgs)
    (V : ValidDec e a) (L : t.limits.Dec e a) (V' : ValidDec e' b) (L' : t.limits.Dec e' b)
    (hk : bytesAt s a.k 16 = bytesAt s' b.k 16) (hn : bytesAt s a.npub 16 = bytesAt s' b.npub 16)
    (had : bytesAt s a.ad a.adlen = bytesAt s' b.ad b.adlen) (hc : bytesAt s a.c a.clen = bytesAt s' b.c b.clen) :
    ∃ r s1 s2, Runs (t.aead.decrypt a) e s r s1 ∧ Runs (t.aead.decrypt b) e' s' r s2 ∧
      bytesAt s1 a.mlen 8 = bytesAt s2 b.mlen 8 ∧
      (r = 0 → bytesAt s1 a.m (a.clen - 16) = bytesAt s2 b.m (b.clen - 16)) := by
  have hl := congrArg List.length hc
  simp only [length_bytesAt] at hl
  have hge := V.clen_ge
  rw [bytesAt_split V.clen_ge, bytesAt_split V'.clen_ge] at hc
  obtain ⟨hb, ht⟩ := List.append_inj hc (by simp; omega)
  have ha : t.accepts s a = t.accepts s' b := by simp only [Target.accepts, hk, hn, had, hb, ht]
  have hp : t.plain s a = t.plain s' b := by simp only [Target.plain, hk, hn, hb]
  obtain ⟨r1, s1, h1⟩ := dec_exists V L s
  obtain ⟨r2, s2, h2⟩ := dec_exists V' L' s'
  have c1 := dec_run V L h1
  have c2 := dec_run V' L' h2
  rw [← ha] at c2
  rcases c1 with ⟨hacc, rfl, m1⟩ | ⟨hacc, rfl, m1⟩ <;> rcases c2 with ⟨hacc2, rfl, m2⟩ | ⟨hacc2, rfl, m2⟩
  · obtain ⟨p1, l1⟩ := dec_m V m1
    obtain ⟨p2, l2⟩ := dec_m V' m2
    exact ⟨0, s1, s2, h1, h2, by rw [l1, l2, hl], fun _ => by rw [p1, p2, hp]⟩
  · exact absurd hacc hacc2
  · exact absurd hacc2 hacc
  · refine ⟨-1, s1, s2, h1, h2, ?_, fun h => absurd h (by decide)⟩
    rw [bytesAt_mem_congr m1, bytesAt_mem_congr m2, bytesAt_putBytes_same' _ _ _ (by simp),
      bytesAt_putBytes_same' _ _ _ (by simp), hl]

/-- **C12** In-place decryption (`m = c`) gives the same plaintext and the same return value as decryption of the same inputs
into a separate buffer. -/
theorem C12_decrypt_in_place (t : Target) (e e' : Env) (s s' : St) (a b : DecArgs)
    (V : ValidDec e a) (L : t.limits.Dec e a) (V' : ValidDec e' b) (L' : t.limits.Dec e' b)
    (_hin : a.m = a.c) (_hsep : Disjoint b.m (b.clen - 16) b.c b.clen)
    (hk : bytesAt s a.k 16 = bytesAt s' b.k 16) (hn : bytesAt s a.npub 16 = bytesAt s' b.npub 16)
    (had : bytesAt s a.ad a.adlen = bytesAt s' b.ad b.adlen) (hc : bytesAt s a.c a.clen = bytesAt s' b.c b.clen) :
    ∃ r s1 s2, Runs (t.aead.decrypt a) e s r s1 ∧ Runs (t.aead.decrypt b) e' s' r s2 ∧
      bytesAt s1 a.mlen 8 = bytesAt s2 b.mlen 8 ∧
      (r = 0 → bytesAt s1 a.m (a.clen - 16) = bytesAt s2 b.m (b.clen - 16)) :=
  decrypt_anywhere t e e' s s' a b V L V' L' hk hn had hc

/-- The hypotheses of C12 are met: messages of 3 bytes in the ciphertext buffer. -/
example (t : Target) : ValidEnc Sample.env { Sample.enc with m := ⟨0, 0⟩ } ∧
    t.limits.Enc Sample.env { Sample.enc with m := ⟨0, 0⟩ } ∧
    ValidDec Sample.env { Sample.dec with m := ⟨0, 0⟩ } ∧
    t.limits.Dec Sample.env { Sample.dec with m := ⟨0, 0⟩ } := by
  have V := Sample.validEnc
  have V' := Sample.validDec
  have L := Sample.limitsEnc t
  have L' := Sample.limitsDec t
  refine ⟨?_, { L with m := .tolerant rfl .. }, ?_, { L' with m := .tolerant rfl .. }⟩
  · exact { V with
      m := Sample.readable _ _ (by decide), c_m := by decide, clen_m := by decide }
  · exact { V' with
      m := Sample.writable _ _ (by decide) (by decide), m_c := by decide, mlen_m := by decide }

/-- **C12** The ciphertext may also begin before the message and overlap it, as when a message is moved down in its buffer: the
result is that of encryption into a separate buffer. -/
theorem C12_encrypt_moved_down (t : Target) (e e' : Env) (s s' : St) (a b : EncArgs)
    (d : Nat) (V : ValidEnc e { a with m := ⟨a.c.blk, a.c.off + d⟩ }) (L : t.limits.Enc e { a with m := ⟨a.c.blk, a.c.off + d⟩ })
    (V' : ValidEnc e' b) (L' : t.limits.Enc e' b) (_hsep : Disjoint b.c (b.mlen + 16) b.m b.mlen)
    (hk : bytesAt s a.k 16 = bytesAt s' b.k 16) (hn : bytesAt s a.npub 16 = bytesAt s' b.npub 16)
    (had : bytesAt s a.ad a.adlen = bytesAt s' b.ad b.adlen)
    (hm : bytesAt s ⟨a.c.blk, a.c.off + d⟩ a.mlen = bytesAt s' b.m b.mlen) :
    ∃ s1 s2, Runs (t.aead.encrypt { a with m := ⟨a.c.blk, a.c.off + d⟩ }) e s 0 s1 ∧ Runs (t.aead.encrypt b) e' s' 0 s2 ∧
      bytesAt s1 a.c (a.mlen + 16) = bytesAt s2 b.c (b.mlen + 16) ∧ bytesAt s1 a.clen 8 = bytesAt s2 b.clen 8 :=
  encrypt_anywhere t e e' s s' _ b V L V' L' hk hn had hm

/-- **C12** In the same way the plaintext may begin before the ciphertext and overlap it. -/
theorem C12_decrypt_moved_down (t : Target) (e e' : Env) (s s' : St) (a b : DecArgs)
    (d : Nat) (V : ValidDec e { a with c := ⟨a.m.blk, a.m.off + d⟩ }) (L : t.limits.Dec e { a with c := ⟨a.m.blk, a.m.off + d⟩ })
    (V' : ValidDec e' b) (L' : t.limits.Dec e' b) (_hsep : Disjoint b.m (b.clen - 16) b.c b.clen)
    (hk : bytesAt s a.k 16 = bytesAt s' b.k 16) (hn : bytesAt s a.npub 16 = bytesAt s' b.npub 16)
    (had : bytesAt s a.ad a.adlen = bytesAt s' b.ad b.adlen)
    (hc : bytesAt s ⟨a.m.blk, a.m.off + d⟩ a.clen = bytesAt s' b.c b.clen) :
    ∃ r s1 s2, Runs (t.aead.decrypt { a with c := ⟨a.m.blk, a.m.off + d⟩ }) e s r s1 ∧ Runs (t.aead.decrypt b) e' s' r s2 ∧
      bytesAt s1 a.mlen 8 = bytesAt s2 b.mlen 8 ∧
      (r = 0 → bytesAt s1 a.m (a.clen - 16) = bytesAt s2 b.m (b.clen - 16)) :=
  decrypt_anywhere t e e' s s' _ b V L V' L' hk hn had hc

/-- The hypotheses are met: the message begins one byte behind the ciphertext, the ciphertext one byte behind the plaintext. -/
example (t : Target) : ValidEnc Sample.env { Sample.enc with m := ⟨0, 0 + 1⟩ } ∧
    t.limits.Enc Sample.env { Sample.enc with m := ⟨0, 0 + 1⟩ } ∧
    ValidDec Sample.env { Sample.dec with m := ⟨0, 0⟩, c := ⟨0, 0 + 1⟩, clen := 18 } ∧
    t.limits.Dec Sample.env { Sample.dec with m := ⟨0, 0⟩, c := ⟨0, 0 + 1⟩, clen := 18 } := by
  have V := Sample.validEnc
  have V' := Sample.validDec
  have L := Sample.limitsEnc t
  have L' := Sample.limitsDec t
  refine ⟨?_, { L with m := .tolerant rfl .. }, ?_,
    { L' with m := .tolerant rfl .., c := .tolerant rfl .., clen_lt := Nat.lt_trans (by decide) (Sample.limits t).1 }⟩
  · exact { V with
      m := fun i hi => decide_eq_true (by have : i < 3 := hi; show 0 + 1 + i < 19; omega)
      c_m := by decide, clen_m := by decide }
  · exact { V' with
      c := fun i hi => decide_eq_true (by have : i < 18 := hi; show 0 + 1 + i < 19; omega)
      clen_lt := by decide, clen_ge := by decide, mlen_c := by decide
      m := Sample.writable _ _ (by decide) (by decide), m_c := by decide, mlen_m := by decide }

/-- **C13** `nsec` is ignored: the call is the same program whatever its value. -/
theorem C13_nsec_ignored (t : Target) (a : EncArgs) (d : DecArgs) (p : Ptr) :
    t.aead.encrypt { a with nsec := p } = t.aead.encrypt a ∧ t.aead.decrypt { d with nsec := p } = t.aead.decrypt d := by
  cases t <;> exact ⟨rfl, rfl⟩

end Props
