import Verif.Proof.OnceEnc
import Verif.Props.Aead
import Verif.Props.Hash
/-!
# C43: interrupted calls
-/

namespace Props
open C Model Spec

/-- **C43** Encryption.  Let a valid call be stopped after any number `n` of steps.  Then every byte of memory has the value it had
before the call or the one it has after the complete call; in particular bytes that do not belong to the output or to `*clen` are
unchanged.  (After some number of steps the call is complete.) -/
theorem C43_encrypt (t : Target) (e : Env) (s : St) (a : EncArgs) (V : ValidEnc e a) (L : t.limits.Enc e a) :
    ∃ s', Runs (t.aead.encrypt a) e s 0 s' ∧ (∃ N, ∀ n, N ≤ n → after n (t.aead.encrypt a) e s = s') ∧ ∀ n b o,
      ((after n (t.aead.encrypt a) e s).mem b o = s.mem b o ∨ (after n (t.aead.encrypt a) e s).mem b o = s'.mem b o) ∧
      (¬ InBuf a.c (a.mlen + 16) b o → ¬ InBuf a.clen 8 b o → (after n (t.aead.encrypt a) e s).mem b o = s.mem b o) := by
  obtain ⟨s', h, _⟩ := t.encryptOK e s a V L
  have T := (t.encParts a L.mlen_lt).tidy V.clen_c e s
  obtain ⟨tr, h'⟩ := id h
  refine ⟨s', h, ⟨tr.length, fun n hn => after_end h' hn⟩, fun n b o => ⟨(T 0 s' h).2 n b o, fun h1 h2 => ?_⟩⟩
  exact T.frame h n b o fun h3 => h3.elim h2 h1

/-- **C43** The tag comes last: when the first byte of the tag is changed, the ciphertext and `*clen` are complete. -/
theorem C43_tag_last (t : Target) (e : Env) (s s' : St) (a : EncArgs) (V : ValidEnc e a) (L : t.limits.Enc e a)
    (h : Runs (t.aead.encrypt a) e s 0 s') (n : Nat)
    (hn : bytesAt (after n (t.aead.encrypt a) e s) (a.c + a.mlen) 16 ≠ bytesAt s (a.c + a.mlen) 16) :
    bytesAt (after n (t.aead.encrypt a) e s) a.c a.mlen = bytesAt s' a.c a.mlen ∧
    bytesAt (after n (t.aead.encrypt a) e s) a.clen 8 = bytesAt s' a.clen 8 := by
  rcases (t.encParts a L.mlen_lt).last V.clen_c e s 0 s' h n with h1 | h1
  · exact absurd (bytesAt_of_inBuf h1) hn
  · exact ⟨bytesAt_of_inBuf fun b o hb => h1 b o (Or.inr hb), bytesAt_of_inBuf fun b o hb => h1 b o (Or.inl hb)⟩

/-- **C43** Decryption: at all times every byte of memory has its old or its final value. -/
theorem C43_decrypt (t : Target) (e : Env) (s : St) (d : DecArgs) (V : ValidDec e d) (L : t.limits.Dec e d) :
    ∃ r s', Runs (t.aead.decrypt d) e s r s' ∧ (∃ N, ∀ n, N ≤ n → after n (t.aead.decrypt d) e s = s') ∧ ∀ n b o,
      ((after n (t.aead.decrypt d) e s).mem b o = s.mem b o ∨ (after n (t.aead.decrypt d) e s).mem b o = s'.mem b o) ∧
      (¬ InBuf d.m (d.clen - 16) b o → ¬ InBuf d.mlen 8 b o → (after n (t.aead.decrypt d) e s).mem b o = s.mem b o) := by
  obtain ⟨r, s', h⟩ := dec_exists V L s
  have T := t.tidy_decrypt d V.clen_ge V.clen_lt L.clen_lt V.mlen_m e s
  obtain ⟨tr, h'⟩ := id h
  refine ⟨r, s', h, ⟨tr.length, fun n hn => after_end h' hn⟩, fun n b o => ⟨(T r s' h).2 n b o, fun h1 h2 => ?_⟩⟩
  exact T.frame h n b o fun h3 => h3.elim h2 h1

/-- **C43** No unverified plaintext, not even for a moment: if at any point of a decryption some byte other than those of `*mlen`
has been changed, then the ciphertext is authentic (the call, if not stopped, returns 0). -/
theorem C43_no_release (t : Target) (e : Env) (s s' : St) (d : DecArgs) (r : Int) (V : ValidDec e d) (L : t.limits.Dec e d)
    (h : Runs (t.aead.decrypt d) e s r s') (n b o : Nat) (hb : ¬ InBuf d.mlen 8 b o)
    (hn : (after n (t.aead.decrypt d) e s).mem b o ≠ s.mem b o) : t.accepts s d ∧ r = 0 := by
  rcases dec_run V L h with ⟨h1, h2, _⟩ | ⟨_, _, hm⟩
  · exact ⟨h1, h2⟩
  · have T := t.tidy_decrypt d V.clen_ge V.clen_lt L.clen_lt V.mlen_m e s
    have hf : s'.mem b o = s.mem b o := by rw [hm, putBytes_frame (by simp) hb]
    rcases (T r s' h).2 n b o with h1 | h1
    · exact absurd h1 hn
    · exact absurd (h1.trans hf) hn

/-- **C43** Hash: at all times every byte of memory has its old or its final value. -/
theorem C43_hash (t : Target) (f : Ptr → Ptr → Nat → CM Int) (hf : t.hash = some f) (e : Env) (s : St) (a : HashArgs)
    (V : ValidHash e a) (A : AlignedHash e a) :
    ∃ s', Runs (f a.out a.inp a.inlen) e s 0 s' ∧ (∃ N, ∀ n, N ≤ n → after n (f a.out a.inp a.inlen) e s = s') ∧ ∀ n b o,
      ((after n (f a.out a.inp a.inlen) e s).mem b o = s.mem b o ∨ (after n (f a.out a.inp a.inlen) e s).mem b o = s'.mem b o) ∧
      (¬ InBuf a.out 32 b o → (after n (f a.out a.inp a.inlen) e s).mem b o = s.mem b o) := by
  have h := Target.hash_run hf A V s
  have T := (Target.once_hash hf a.out a.inp a.inlen).tidy e s
  obtain ⟨tr, h'⟩ := id h
  exact ⟨_, h, ⟨tr.length, fun n hn => after_end h' hn⟩, fun n b o => ⟨(T _ _ h).2 n b o, T.frame h n b o⟩⟩

/-! ## Trying again -/

/-- **C43** A call of `crypto_aead_encrypt` can be repeated after any number of attempts that were stopped at any points, if the message
is not overwritten by the output: it then has the same effect as if it had not been interrupted. -/
theorem C43_retry_encrypt (t : Target) (e : Env) (s s' : St) (a : EncArgs) (V : ValidEnc e a) (L : t.limits.Enc e a)
    (hm : Disjoint a.c (a.mlen + 16) a.m a.mlen) (h : Runs (t.aead.encrypt a) e s 0 s') (l : List Nat) :
    ∃ s'', Runs (t.aead.encrypt a) e (attempts (t.aead.encrypt a) e l s) 0 s'' ∧ s''.mem = s'.mem := by
  generalize hu : attempts (t.aead.encrypt a) e l s = u
  have F : ∀ b o, ¬ InBuf a.c (a.mlen + 16) b o → ¬ InBuf a.clen 8 b o → u.mem b o = s.mem b o := by
    rw [← hu]
    clear h hu
    induction l generalizing s with
    | nil => exact fun _ _ _ _ => rfl
    | cons n l ih =>
      intro b o h1 h2
      obtain ⟨_, _, _, h3⟩ := C43_encrypt t e s a V L
      rw [attempts, ih _ b o h1 h2]
      exact (h3 n b o).2 h1 h2
  have B : ∀ p n, Disjoint a.c (a.mlen + 16) p n → Disjoint a.clen 8 p n → bytesAt u p n = bytesAt s p n := fun p n d1 d2 =>
    bytesAt_of_inBuf fun b o hb => F b o (fun h => d1.not_both h hb) (fun h => d2.not_both h hb)
  have ho : t.out u a = t.out s a := by
    unfold Target.out
    rw [B _ _ V.c_k V.clen_k, B _ _ V.c_npub V.clen_npub, B _ _ V.c_ad V.clen_ad, B _ _ hm V.clen_m]
  obtain ⟨s'', h', hm'⟩ := t.encryptOK e u a V L
  refine ⟨s'', h', ?_⟩
  have hm' : s''.mem = (putBytes (putBytes u a.clen (toLe64 (BitVec.ofNat 64 (a.mlen + 16)))) a.c (t.out u a)).mem := hm'
  rw [hm', (enc_run V L h).2, ho]
  funext b o
  simp only [putBytes_mem]
  split
  · rfl
  · split
    · rfl
    · rename_i h1 h2
      exact F b o (by rw [t.length_out] at h1; exact h1) (by rwa [length_toLe64] at h2)

/-- **C43** The same for `crypto_aead_decrypt`, if no input is overwritten by the output. -/
theorem C43_retry_decrypt (t : Target) (e : Env) (s s' : St) (d : DecArgs) (r : Int) (V : ValidDec e d) (L : t.limits.Dec e d)
    (hc : Disjoint d.m (d.clen - 16) d.c d.clen) (had : Disjoint d.m (d.clen - 16) d.ad d.adlen)
    (hnp : Disjoint d.m (d.clen - 16) d.npub 16) (hk : Disjoint d.m (d.clen - 16) d.k 16)
    (h : Runs (t.aead.decrypt d) e s r s') (l : List Nat) :
    ∃ s'', Runs (t.aead.decrypt d) e (attempts (t.aead.decrypt d) e l s) r s'' ∧ s''.mem = s'.mem := by
  -- what earlier attempts have left
  let Inv := fun u : St => (∀ b o, ¬ InBuf d.m (d.clen - 16) b o → ¬ InBuf d.mlen 8 b o → u.mem b o = s.mem b o) ∧
    (¬ t.accepts s d → ∀ b o, ¬ InBuf d.mlen 8 b o → u.mem b o = s.mem b o)
  have B : ∀ u, Inv u → ∀ p n, Disjoint d.m (d.clen - 16) p n → Disjoint d.mlen 8 p n → bytesAt u p n = bytesAt s p n := fun u F p n d1 d2 =>
    bytesAt_of_inBuf fun b o hb => F.1 b o (fun h => d1.not_both h hb) (fun h => d2.not_both h hb)
  have hge := V.clen_ge
  have acc : ∀ u, Inv u → (t.accepts u d ↔ t.accepts s d) ∧ t.plain u d = t.plain s d := by
    intro u F
    have h3 : bytesAt u d.c d.clen = bytesAt s d.c d.clen := B u F _ _ hc V.mlen_c
    rw [bytesAt_split hge, bytesAt_split hge] at h3
    obtain ⟨h4, h5⟩ := List.append_inj h3 (by simp)
    unfold Target.accepts Target.plain
    rw [B u F _ _ hk V.mlen_k, B u F _ _ hnp V.mlen_npub, B u F _ _ had V.mlen_ad, h4, h5]
    exact ⟨Iff.rfl, rfl⟩
  have hI : ∀ u, Inv u → Inv (attempts (t.aead.decrypt d) e l u) := by
    induction l with
    | nil => exact fun _ h => h
    | cons n l ih =>
      intro u F
      refine ih _ ⟨fun b o h1 h2 => ?_, fun hr b o h2 => ?_⟩
      · obtain ⟨_, _, _, _, h3⟩ := C43_decrypt t e u d V L
        rw [(h3 n b o).2 h1 h2]
        exact F.1 b o h1 h2
      · obtain ⟨r, s1, h3⟩ := dec_exists V L u
        rw [← F.2 hr b o h2]
        exact Classical.byContradiction fun h4 => hr ((acc u F).1.1 (C43_no_release t e u s1 d r V L h3 n b o h2 h4).1)
  have F := hI s ⟨fun _ _ _ _ => rfl, fun _ _ _ _ => rfl⟩
  generalize attempts (t.aead.decrypt d) e l s = u at F
  obtain ⟨h1, h2⟩ := acc u F
  rcases dec_run V L h with ⟨ha, rfl, hm⟩ | ⟨ha, rfl, hm⟩
  · obtain ⟨s'', h', hm'⟩ := dec_accept V L (h1.2 ha)
    refine ⟨s'', h', ?_⟩
    rw [hm', hm, h2]
    funext b o
    simp only [putBytes_mem]
    split
    · rfl
    · split
      · rfl
      · rename_i h1 h2
        exact F.1 b o (by rw [t.length_plain] at h1; exact h1) (by rwa [length_toLe64] at h2)
  · obtain ⟨s'', h', hm'⟩ := dec_reject V.toValidDecIn L fun h => ha (h1.1 h)
    refine ⟨s'', h', ?_⟩
    rw [hm', hm]
    funext b o
    simp only [putBytes_mem]
    split
    · rfl
    · rename_i h2
      exact F.2 ha b o (by rwa [length_toLe64] at h2)

/-- **C43** The same for `crypto_hash`. -/
theorem C43_retry_hash (t : Target) (f : Ptr → Ptr → Nat → CM Int) (hf : t.hash = some f) (e : Env) (s s' : St) (a : HashArgs)
    (V : ValidHash e a) (A : AlignedHash e a) (hd : Disjoint a.out 32 a.inp a.inlen) (h : Runs (f a.out a.inp a.inlen) e s 0 s')
    (l : List Nat) :
    ∃ s'', Runs (f a.out a.inp a.inlen) e (attempts (f a.out a.inp a.inlen) e l s) 0 s'' ∧ s''.mem = s'.mem := by
  generalize hu : attempts (f a.out a.inp a.inlen) e l s = u
  have F : ∀ b o, ¬ InBuf a.out 32 b o → u.mem b o = s.mem b o := by
    rw [← hu]
    clear h hu
    induction l generalizing s with
    | nil => exact fun _ _ _ => rfl
    | cons n l ih =>
      intro b o h1
      obtain ⟨_, _, _, h3⟩ := C43_hash t f hf e s a V A
      rw [attempts, ih _ b o h1]
      exact (h3 n b o).2 h1
  have B : bytesAt u a.inp a.inlen = bytesAt s a.inp a.inlen :=
    bytesAt_of_inBuf fun b o hb => F b o fun h => hd.not_both h hb
  refine ⟨_, Target.hash_run hf A V u, ?_⟩
  rw [(h.det (Target.hash_run hf A V s)).2, B]
  funext b o
  simp only [putBytes_mem]
  split
  · rfl
  · rename_i h1
    exact F b o (by rwa [t.length_hashSpec] at h1)

/-- **C43** Why the message must not be overwritten: if a call that encrypts in place is stopped after the ciphertext has been stored,
and repeated, then it returns 0, and what it leaves in the place of the ciphertext is the plaintext. -/
theorem C43_in_place_not_repeatable (t : Target) (e : Env) (s s' s'' : St) (a : EncArgs) (V : ValidEnc e a) (L : t.limits.Enc e a)
    (hin : a.c = a.m) (h : Runs (t.aead.encrypt a) e s 0 s') (n : Nat)
    (hn : bytesAt (after n (t.aead.encrypt a) e s) a.c a.mlen = bytesAt s' a.c a.mlen)
    (h2 : Runs (t.aead.encrypt a) e (after n (t.aead.encrypt a) e s) 0 s'') : bytesAt s'' a.c a.mlen = bytesAt s a.m a.mlen := by
  obtain ⟨_, _, _, F⟩ := C43_encrypt t e s a V L
  have B : ∀ p n', Disjoint a.c (a.mlen + 16) p n' → Disjoint a.clen 8 p n' →
      bytesAt (after n (t.aead.encrypt a) e s) p n' = bytesAt s p n' := fun p n' d1 d2 =>
    bytesAt_of_inBuf fun b o hb => (F n b o).2 (fun h => d1.not_both h hb) (fun h => d2.not_both h hb)
  have body : ∀ {u u' : St}, Runs (t.aead.encrypt a) e u 0 u' → bytesAt u' a.c a.mlen =
      t.spec.enc (bytesAt u a.k 16) (bytesAt u a.npub 16) (bytesAt u a.c a.mlen) := by
    intro u u' h
    have h := enc_c V L h
    rw [bytesAt_split (Nat.le_add_left 16 a.mlen), Nat.add_sub_cancel, Target.out, Params.encrypt] at h
    rw [(List.append_inj h (by simp)).1, hin]
  rw [body h2, hn, body h, B _ _ V.c_k V.clen_k, B _ _ V.c_npub V.clen_npub, Params.enc_enc, hin]

/-! ## Non-vacuity -/

theorem xor_one_ne (x : Byte) : x ^^^ 1 ≠ x := by
  revert x
  decide

/-- The hypotheses of `C43_tag_last` can be met: memory that contains something else where the tag will be stored. -/
example (t : Target) : ∃ s s' n, Runs (t.aead.encrypt Sample.enc) Sample.env s 0 s' ∧
    bytesAt (after n (t.aead.encrypt Sample.enc) Sample.env s) (Sample.enc.c + Sample.enc.mlen) 16 ≠
      bytesAt s (Sample.enc.c + Sample.enc.mlen) 16 := by
  let x := (t.out Sample.st Sample.enc).getD 3 0
  let s := putBytes Sample.st ⟨0, 3⟩ [x ^^^ 1]
  obtain ⟨s', h, ⟨N, hN⟩, _⟩ := C43_encrypt t Sample.env s Sample.enc Sample.validEnc (Sample.limitsEnc t)
  refine ⟨s, s', N, h, ?_⟩
  rw [hN N (Nat.le_refl _)]
  have fr : ∀ b n, b ≠ 0 → bytesAt s ⟨b, 0⟩ n = bytesAt Sample.st ⟨b, 0⟩ n := fun b n hb =>
    bytesAt_of_inBuf fun b' o ⟨h1, _⟩ => putBytes_frame (n := 1) rfl fun ⟨h2, _⟩ => hb (h1.symm.trans h2)
  have ho : t.out s Sample.enc = t.out Sample.st Sample.enc := by
    unfold Target.out
    rw [show bytesAt s Sample.enc.k 16 = _ from fr 5 16 (by decide), show bytesAt s Sample.enc.npub 16 = _ from fr 4 16 (by decide),
      show bytesAt s Sample.enc.ad Sample.enc.adlen = _ from fr 3 20 (by decide),
      show bytesAt s Sample.enc.m Sample.enc.mlen = _ from fr 2 3 (by decide)]
    rfl
  intro he
  have h0 := congrArg (·.getD 0 0) he
  have h1 : s'.mem 0 3 = x := by
    rw [(enc_run Sample.validEnc (Sample.limitsEnc t) h).2, ho, putBytes_mem, if_pos]
    · rfl
    · rw [t.length_out]; exact ⟨rfl, by decide, by decide⟩
  have h2 : s.mem 0 3 = x ^^^ 1 := rfl
  have h0 : s'.mem 0 3 = s.mem 0 3 := h0
  rw [h1, h2] at h0
  exact xor_one_ne x h0.symm

/-- The hypotheses of `C43_no_release` can be met: an authentic ciphertext and something else in the plaintext buffer. -/
example (t : Target) : ∃ s s' n, Runs (t.aead.decrypt Sample.dec) Sample.env s 0 s' ∧ ¬ InBuf Sample.dec.mlen 8 7 0 ∧
    (after n (t.aead.decrypt Sample.dec) Sample.env s).mem 7 0 ≠ s.mem 7 0 := by
  obtain ⟨T, s1, _, h1⟩ := C05_some_tag_accepted t Sample.env Sample.st Sample.dec Sample.validDec (Sample.limitsDec t) (by decide) (by decide)
    (by decide)
  have hacc := (dec_zero Sample.validDec (Sample.limitsDec t) h1).1
  generalize putBytes Sample.st _ T = s0 at hacc
  let x := (t.plain s0 Sample.dec).getD 0 0
  let s := putBytes s0 ⟨7, 0⟩ [x ^^^ 1]
  have fr : ∀ b i n, b ≠ 7 → bytesAt s ⟨b, i⟩ n = bytesAt s0 ⟨b, i⟩ n := fun b i n hb =>
    bytesAt_of_inBuf fun b' o ⟨h1, _⟩ => putBytes_frame (n := 1) rfl fun ⟨h2, _⟩ => hb (h1.symm.trans h2)
  have hp : t.plain s Sample.dec = t.plain s0 Sample.dec := by
    unfold Target.plain
    rw [show bytesAt s Sample.dec.k 16 = _ from fr 5 0 16 (by decide), show bytesAt s Sample.dec.npub 16 = _ from fr 4 0 16 (by decide),
      show bytesAt s Sample.dec.c (Sample.dec.clen - 16) = _ from fr 0 0 3 (by decide)]
    rfl
  have ha : t.accepts s Sample.dec := by
    unfold Target.accepts at hacc ⊢
    rw [show bytesAt s Sample.dec.k 16 = _ from fr 5 0 16 (by decide), show bytesAt s Sample.dec.npub 16 = _ from fr 4 0 16 (by decide),
      show bytesAt s Sample.dec.ad Sample.dec.adlen = _ from fr 3 0 20 (by decide),
      show bytesAt s Sample.dec.c (Sample.dec.clen - 16) = _ from fr 0 0 3 (by decide),
      show bytesAt s (Sample.dec.c + (Sample.dec.clen - 16)) 16 = _ from fr 0 3 16 (by decide)]
    exact hacc
  obtain ⟨s', h, hm⟩ := dec_accept Sample.validDec (Sample.limitsDec t) ha
  obtain ⟨r, s2, h2, ⟨N, hN⟩, _⟩ := C43_decrypt t Sample.env s Sample.dec Sample.validDec (Sample.limitsDec t)
  obtain ⟨rfl, rfl⟩ := h.det h2
  refine ⟨s, s', N, h, by decide, ?_⟩
  rw [hN N (Nat.le_refl _), hm, hp, putBytes_mem, if_pos]
  · exact fun h => xor_one_ne x h.symm
  · rw [t.length_plain]; exact ⟨rfl, by decide, by decide⟩

/-- The conditions for trying again can be met. -/
example (t : Target) : (∃ s', Runs (t.aead.encrypt Sample.enc) Sample.env Sample.st 0 s') ∧
    Disjoint Sample.enc.c (Sample.enc.mlen + 16) Sample.enc.m Sample.enc.mlen ∧
    (∃ r s', Runs (t.aead.decrypt Sample.dec) Sample.env Sample.st r s') ∧
    Disjoint Sample.dec.m (Sample.dec.clen - 16) Sample.dec.c Sample.dec.clen ∧
    Disjoint Sample.dec.m (Sample.dec.clen - 16) Sample.dec.ad Sample.dec.adlen ∧
    Disjoint Sample.dec.m (Sample.dec.clen - 16) Sample.dec.npub 16 ∧ Disjoint Sample.dec.m (Sample.dec.clen - 16) Sample.dec.k 16 := by
  obtain ⟨s', h, _⟩ := t.encryptOK Sample.env Sample.st Sample.enc Sample.validEnc (Sample.limitsEnc t)
  exact ⟨⟨s', h⟩, by decide, dec_exists Sample.validDec (Sample.limitsDec t) _, by decide, by decide, by decide, by decide⟩

/-- Stopping matters: after its first step every encryption has stored the length and nothing else. -/
example (t : Target) (b o : Nat) : (after 1 (t.aead.encrypt Sample.enc) Sample.env Sample.st).mem b o =
    (putBytes Sample.st Sample.enc.clen (toLe64 19)).mem b o := by
  cases t <;> rfl

example : ∃ a, ValidHash sampleHashEnv a ∧ AlignedHash sampleHashEnv a ∧ Disjoint a.out 32 a.inp a.inlen ∧ a.inlen ≠ 0 := by
  refine ⟨⟨⟨0, 4⟩, ⟨0, 0⟩, 4⟩, ⟨fun i hi => sampleHash_valid.inp i (Nat.lt_of_lt_of_le hi (by decide)), sampleHash_valid.out, by decide⟩,
    ⟨.tolerant rfl .., .tolerant rfl ..⟩, by decide, by decide⟩

/-- The hypotheses of `C43_in_place_not_repeatable` are met: a message of 3 bytes in the place of the ciphertext. -/
example (t : Target) : ∃ s' s'' n, Runs (t.aead.encrypt { Sample.enc with m := ⟨0, 0⟩ }) Sample.env Sample.st 0 s' ∧
      bytesAt (after n (t.aead.encrypt { Sample.enc with m := ⟨0, 0⟩ }) Sample.env Sample.st) ⟨0, 0⟩ 3 = bytesAt s' ⟨0, 0⟩ 3 ∧
      Runs (t.aead.encrypt { Sample.enc with m := ⟨0, 0⟩ }) Sample.env
        (after n (t.aead.encrypt { Sample.enc with m := ⟨0, 0⟩ }) Sample.env Sample.st) 0 s'' := by
  have V : ValidEnc Sample.env { Sample.enc with m := ⟨0, 0⟩ } :=
    { Sample.validEnc with m := Sample.readable _ _ (by decide), c_m := by decide, clen_m := by decide }
  have L : t.limits.Enc Sample.env { Sample.enc with m := ⟨0, 0⟩ } := { Sample.limitsEnc t with m := .tolerant rfl .. }
  obtain ⟨s', h, ⟨N, hN⟩, _⟩ := C43_encrypt t _ Sample.st _ V L
  obtain ⟨s'', h2, _⟩ := t.encryptOK _ s' _ V L
  refine ⟨s', s'', N, h, ?_⟩
  rw [hN N (Nat.le_refl N)]
  exact ⟨rfl, h2⟩

end Props
