import Verif.Spec.Kat
import Verif.Model.Programs
import Verif.Proof.Calls
import Verif.Proof.Hash
/-!
# The programs in `/repo/tests`: what they do
-/

namespace Model.Prog
open C Spec Spec.Kat

@[simp] theorem length_ramp (n : Nat) : (ramp n).length = n := by simp [ramp]

theorem ramp_take (n m : Nat) (h : m ≤ n) : (ramp n).take m = ramp m := by
  rw [ramp, ← List.map_take, List.take_range, Nat.min_eq_left h]; rfl

theorem digit_eq : ∀ i : Fin 16, digit i.val = hexDigit i.val := by decide

theorem hex2_eq (b : Byte) : hex2 b = hex b := by
  have := b.isLt
  unfold hex2 hex
  rw [digit_eq ⟨b.toNat / 16, by omega⟩, digit_eq ⟨b.toNat % 16, by omega⟩]

theorem dec_eq (n : Nat) : Prog.dec n = (toString n).toList := rfl

theorem runs_initBuffer {e : Env} {s : St} {p : Ptr} {n : Nat} (h : Writable e p n) :
    Runs (initBuffer p n) e s () (putBytes s p (ramp n)) := by
  have := runs_forN (f := fun i (_ : Unit) => store8 (p + i) (BitVec.ofNat 8 i)) (e := e) n 0 (fun _ => ())
    (fun j => putBytes s p (ramp j)) (by
      intro j hj
      refine runs_eq2 (runs_store8 (h.add (by omega))) rfl ?_
      have e1 := putBytes_append s p (ramp j) [BitVec.ofNat 8 j]
      rw [length_ramp] at e1
      rw [show ramp (j + 1) = ramp j ++ [BitVec.ofNat 8 j] by simp [ramp, List.range_succ], ← e1, Nat.zero_add])
  have h0 : putBytes s p (ramp 0) = s := putBytes_nil s p
  simp only [h0] at this
  exact this

theorem runs_fprintBstr {e : Env} {s : St} {p : Ptr} {n : Nat} (h : Readable e p n) (fp : Text) (label : String) :
    Runs (fprintBstr fp label p n) e s (fp ++ line label (bytesAt s p n)) s := by
  have := runs_forN_pure (f := fun i fp => do
    let b ← load8 (p + i)
    pure (fp ++ hex2 b)) (e := e) (s := s) n 0 (fun j => fp ++ label.toList ++ (bytesAt s p j).flatMap hex) (by
      intro j hj
      refine runs_bind (runs_load8_at h (by omega)) (runs_eq (runs_pure _ _ _) ?_)
      rw [Nat.zero_add, getD_bytesAt s p hj, hex2_eq, bytesAt_succ, List.flatMap_append, List.append_assoc]
      simp)
  have h0 : bytesAt s p 0 = [] := rfl
  simp only [h0, List.flatMap_nil, List.append_nil] at this
  refine runs_bind this (runs_eq (runs_pure _ _ _) ?_)
  simp only [line, List.append_assoc]

theorem runs_loadBytes {e : Env} {s : St} {p : Ptr} {n : Nat} (h : Readable e p n) : Runs (load 1 n p) e s (bytesAt s p n) s :=
  ⟨[.rd p n], by simp [load, run, h.canRead, alignedOk, Nat.mod_one, Out.cons]⟩

theorem runs_memcmp {e : Env} {s : St} {p q : Ptr} {n : Nat} (h : Readable e p n) (h' : Readable e q n) :
    Runs (memcmp p q n) e s (bytesAt s p n != bytesAt s q n) s :=
  runs_bind (runs_loadBytes h) (runs_bind (runs_loadBytes h') (runs_pure _ _ _))

theorem runs_loadLen {e : Env} {s : St} {p : Ptr} (h : Readable e p 8) : Runs (loadLen p) e s (le64 (bytesAt s p 8)).toNat s :=
  runs_bind (runs_loadBytes h) (runs_pure _ _ _)

/-- The arrays are different objects of the sizes declared in the programs. -/
structure Bufs.Ok (b : Bufs) (e : Env) (maxM maxAd : Nat) : Prop where
  key : Writable e b.key 16
  nonce : Writable e b.nonce 16
  msg : Writable e b.msg maxM
  msg2 : Writable e b.msg2 maxM
  ad : Writable e b.ad maxAd
  ct : Writable e b.ct (maxM + 16)
  clen : Writable e b.clen 8
  mlen2 : Writable e b.mlen2 8
  objects : [b.key.blk, b.nonce.blk, b.msg.blk, b.msg2.blk, b.ad.blk, b.ct.blk, b.clen.blk, b.mlen2.blk].Nodup
  maxM_lt : maxM + 16 < 2 ^ 64
  maxAd_lt : maxAd < 2 ^ 64

theorem disjoint_of_blk {p q : Ptr} {n m : Nat} (h : p.blk ≠ q.blk) : Disjoint p n q m := Or.inr (Or.inr (Or.inl h))

variable {b : Bufs} {e : Env} {maxM maxAd : Nat}

theorem Bufs.Ok.validEnc (O : b.Ok e maxM maxAd) {m a : Nat} (hm : m ≤ maxM) (ha : a ≤ maxAd) : ValidEnc e (b.enc m a) := by
  have h := O.objects
  have h1 := O.maxM_lt
  have h2 := O.maxAd_lt
  simp only [List.nodup_cons, List.mem_cons, not_or, List.not_mem_nil, not_false_eq_true, List.nodup_nil, and_true] at h
  obtain ⟨⟨h01, h02, h03, h04, h05, h06, h07⟩, ⟨h12, h13, h14, h15, h16, h17⟩, ⟨h23, h24, h25, h26, h27⟩, ⟨h34, h35, h36, h37⟩,
    ⟨h45, h46, h47⟩, ⟨h56, h57⟩, h67⟩ := h
  exact { k := O.key.readable, npub := O.nonce.readable, ad := O.ad.readable.mono ha, m := O.msg.readable.mono hm,
          c := O.ct.mono (by show m + 16 ≤ _; omega), clen := O.clen, adlen_lt := by show a < _; omega, mlen_lt := by show m + 16 < _; omega,
          c_m := Or.inr (Or.inl (Ne.symm h25)), c_ad := disjoint_of_blk (Ne.symm h45), c_npub := disjoint_of_blk (Ne.symm h15),
          c_k := disjoint_of_blk (Ne.symm h05), clen_c := disjoint_of_blk (Ne.symm h56), clen_m := disjoint_of_blk (Ne.symm h26),
          clen_ad := disjoint_of_blk (Ne.symm h46), clen_npub := disjoint_of_blk (Ne.symm h16), clen_k := disjoint_of_blk (Ne.symm h06) }

theorem Bufs.Ok.validDec (O : b.Ok e maxM maxAd) {m a : Nat} (hm : m ≤ maxM) (ha : a ≤ maxAd) : ValidDec e (b.dec (m + 16) a) := by
  have h := O.objects
  have h1 := O.maxM_lt
  have h2 := O.maxAd_lt
  simp only [List.nodup_cons, List.mem_cons, not_or, List.not_mem_nil, not_false_eq_true, List.nodup_nil, and_true] at h
  obtain ⟨⟨h01, h02, h03, h04, h05, h06, h07⟩, ⟨h12, h13, h14, h15, h16, h17⟩, ⟨h23, h24, h25, h26, h27⟩, ⟨h34, h35, h36, h37⟩,
    ⟨h45, h46, h47⟩, ⟨h56, h57⟩, h67⟩ := h
  exact { k := O.key.readable, npub := O.nonce.readable, ad := O.ad.readable.mono ha, c := O.ct.readable.mono (by show m + 16 ≤ _; omega),
          mlen := O.mlen2, adlen_lt := by show a < _; omega, clen_lt := by show m + 16 < _; omega, clen_ge := by show 16 ≤ m + 16; omega,
          mlen_c := disjoint_of_blk (Ne.symm h57), mlen_ad := disjoint_of_blk (Ne.symm h47), mlen_npub := disjoint_of_blk (Ne.symm h17),
          mlen_k := disjoint_of_blk (Ne.symm h07), m := O.msg2.mono (by show m + 16 - 16 ≤ _; omega), m_c := Or.inr (Or.inl h35),
          mlen_m := disjoint_of_blk (Ne.symm h37) }

/-- The inputs contain what `init_buffer` stores. -/
structure Bufs.Init (b : Bufs) (s : St) (maxM maxAd : Nat) : Prop where
  key : bytesAt s b.key 16 = ramp 16
  nonce : bytesAt s b.nonce 16 = ramp 16
  msg : bytesAt s b.msg maxM = ramp maxM
  ad : bytesAt s b.ad maxAd = ramp maxAd

theorem Bufs.Init.congr {s s' : St} (I : b.Init s maxM maxAd)
    (h : ∀ p n, (p = b.key ∨ p = b.nonce ∨ p = b.msg ∨ p = b.ad) → bytesAt s' p n = bytesAt s p n) : b.Init s' maxM maxAd :=
  ⟨by rw [h _ _ (Or.inl rfl), I.key], by rw [h _ _ (Or.inr (Or.inl rfl)), I.nonce],
    by rw [h _ _ (Or.inr (Or.inr (Or.inl rfl))), I.msg], by rw [h _ _ (Or.inr (Or.inr (Or.inr rfl))), I.ad]⟩

/-- All calls made by the generator respect the limits of the implementation. -/
def Bufs.Limits (b : Bufs) (t : Target) (e : Env) (maxM maxAd : Nat) : Prop :=
  ∀ m a, m ≤ maxM → a ≤ maxAd → t.limits.Enc e (b.enc m a) ∧ t.limits.Dec e (b.dec (m + 16) a)

variable {t : Target}

theorem runs_vector (O : b.Ok e maxM maxAd) (L : b.Limits t e maxM maxAd) {s : St} (I : b.Init s maxM maxAd) {m a : Nat} (hm : m ≤ maxM)
    (ha : a ≤ maxAd) (count : Nat) (fp : Text) :
    ∃ s', Runs (vector t.aead b m a count fp) e s (fp ++ record t.spec.encrypt m a count, 0) s' ∧ b.Init s' maxM maxAd := by
  have V := O.validEnc hm ha
  have V' := O.validDec hm ha
  obtain ⟨LE, LD⟩ := L m a hm ha
  have h := O.objects
  simp only [List.nodup_cons, List.mem_cons, not_or, List.not_mem_nil, not_false_eq_true, List.nodup_nil, and_true] at h
  obtain ⟨⟨h01, h02, h03, h04, h05, h06, h07⟩, ⟨h12, h13, h14, h15, h16, h17⟩, ⟨h23, h24, h25, h26, h27⟩, ⟨h34, h35, h36, h37⟩,
    ⟨h45, h46, h47⟩, ⟨h56, h57⟩, h67⟩ := h
  have hmsg : bytesAt s b.msg m = ramp m := by rw [← bytesAt_take s b.msg maxM m hm, I.msg, ramp_take _ _ hm]
  have had : bytesAt s b.ad a = ramp a := by rw [← bytesAt_take s b.ad maxAd a ha, I.ad, ramp_take _ _ ha]
  obtain ⟨s1, r1, -⟩ := t.encryptOK e s _ V LE
  have c1 : bytesAt s1 b.ct (m + 16) = t.spec.encrypt (ramp 16) (ramp 16) (ramp a) (ramp m) := by
    have := enc_c V LE r1
    simp only [Target.out, Bufs.enc, I.key, I.nonce, had, hmsg] at this
    exact this
  have l1 : (le64 (bytesAt s1 b.clen 8)).toNat = m + 16 := by
    have := enc_clen V LE r1
    simp only [Bufs.enc] at this
    rw [this, le64_toLe64, BitVec.toNat_ofNat, Nat.mod_eq_of_lt (by have := O.maxM_lt; omega)]
  have f1 : ∀ (p : Ptr) (n : Nat), p.blk ≠ b.ct.blk → p.blk ≠ b.clen.blk → bytesAt s1 p n = bytesAt s p n := by
    intro p n h1 h2
    unfold bytesAt
    apply List.map_congr_left
    intro i _
    exact enc_frame V LE r1 (fun hh => h1 hh.1) (fun hh => h2 hh.1)
  have I1 : b.Init s1 maxM maxAd := I.congr fun p n hp => by
    rcases hp with rfl | rfl | rfl | rfl
    · exact f1 _ _ h05 h06
    · exact f1 _ _ h15 h16
    · exact f1 _ _ h25 h26
    · exact f1 _ _ h45 h46
  have hmsg1 : bytesAt s1 b.msg m = ramp m := by rw [← bytesAt_take s1 b.msg maxM m hm, I1.msg, ramp_take _ _ hm]
  have had1 : bytesAt s1 b.ad a = ramp a := by rw [← bytesAt_take s1 b.ad maxAd a ha, I1.ad, ramp_take _ _ ha]
  obtain ⟨hacc, hp⟩ := accepts_of_encrypt (t := t) (d := b.dec (m + 16) a) V'.clen_ge I1.key I1.nonce had1 c1
  obtain ⟨s2, r2, m2⟩ := dec_accept V' LD hacc
  obtain ⟨p2, l2⟩ := dec_m V' m2
  simp only [Bufs.dec, Nat.add_sub_cancel] at p2 l2
  have l2' : (le64 (bytesAt s2 b.mlen2 8)).toNat = m := by
    rw [l2, le64_toLe64, BitVec.toNat_ofNat, Nat.mod_eq_of_lt (by have := O.maxM_lt; omega)]
  have p2' : bytesAt s2 b.msg2 m = ramp m := p2.trans hp
  have f2 : ∀ (p : Ptr) (n : Nat), p.blk ≠ b.msg2.blk → p.blk ≠ b.mlen2.blk → bytesAt s2 p n = bytesAt s1 p n := by
    intro p n h1 h2
    rw [bytesAt_mem_congr m2, bytesAt_putBytes_disjoint _ _ _ _ _ (show Disjoint p n (b.dec (m + 16) a).m _ from disjoint_of_blk h1),
      bytesAt_putBytes_disjoint _ _ _ _ _ (show Disjoint p n (b.dec (m + 16) a).mlen _ from disjoint_of_blk h2)]
  have I2 : b.Init s2 maxM maxAd := I1.congr fun p n hp => by
    rcases hp with rfl | rfl | rfl | rfl
    · exact f2 _ _ h03 h07
    · exact f2 _ _ h13 h17
    · exact f2 _ _ h23 h27
    · exact f2 _ _ (Ne.symm h34) h47
  have hmsg2 : bytesAt s2 b.msg m = ramp m := by rw [← bytesAt_take s2 b.msg maxM m hm, I2.msg, ramp_take _ _ hm]
  refine ⟨s2, ?_, I2⟩
  unfold vector
  refine runs_bind (runs_fprintBstr V.k _ _) (runs_bind (runs_fprintBstr V.npub _ _) (runs_bind (runs_fprintBstr V.m _ _)
    (runs_bind (runs_fprintBstr V.ad _ _) (runs_bind r1 (runs_if_false (by simp) ?_)))))
  refine runs_bind (runs_loadLen O.clen.readable) (runs_bind (runs_fprintBstr ?_ _ _) (runs_bind (runs_loadLen O.clen.readable) ?_))
  · rw [l1]; exact V.c.readable
  rw [l1]
  refine runs_bind r2 (runs_if_false (by simp) ?_)
  refine runs_bind (runs_loadLen O.mlen2.readable) (runs_if_false (by simp [l2']) ?_)
  refine runs_bind (runs_memcmp V.m (O.msg2.readable.mono hm)) (runs_bind (runs_branch _ _ _) ?_)
  rw [show (bytesAt s2 b.msg m != bytesAt s2 b.msg2 m) = false by
    rw [hmsg2, p2']; simp]
  rw [if_neg Bool.false_ne_true]
  refine runs_eq (runs_pure _ _ _) (congrArg (fun x => (x, (0 : Int))) ?_)
  unfold record countLine
  rw [dec_eq]
  generalize "Count = ".toList = u1
  generalize "\n".toList = u2
  have e1 : bytesAt s (b.enc m a).k 16 = ramp 16 := I.key
  have e2 : bytesAt s (b.enc m a).npub 16 = ramp 16 := I.nonce
  have e3 : bytesAt s (b.enc m a).m (b.enc m a).mlen = ramp m := hmsg
  have e4 : bytesAt s (b.enc m a).ad (b.enc m a).adlen = ramp a := had
  rw [e1, e2, e3, e4, c1]
  generalize line "CT = " _ = u3
  generalize line "AD = " _ = u4
  generalize line "PT = " _ = u5
  generalize line "Key = " _ = u6
  generalize line "Nonce = " _ = u7
  simp only [List.append_assoc]

/-- Records for `adlen`, `adlen + 1`, ... -/
def adText (E : (K N A M : List Byte) → List Byte) (m : Nat) : (n a count : Nat) → Text
  | 0, _, _ => []
  | n + 1, a, count => record E m a count ++ adText E m n (a + 1) (count + 1)

theorem runs_adLoop (O : b.Ok e maxM maxAd) (L : b.Limits t e maxM maxAd) {m : Nat} (hm : m ≤ maxM) (n : Nat) :
    ∀ (a count : Nat) (fp : Text) (s : St), b.Init s maxM maxAd → a + n ≤ maxAd + 1 →
    ∃ s', Runs (adLoop t.aead b m n a count fp) e s (fp ++ adText t.spec.encrypt m n a count, count + n, 0) s' ∧ b.Init s' maxM maxAd := by
  induction n with
  | zero =>
    intro a count fp s I _
    exact ⟨s, runs_bind (runs_branch _ _ _) (runs_eq (runs_pure _ _ _) (by simp [adText])), I⟩
  | succ n ih =>
    intro a count fp s I ha
    obtain ⟨s1, r1, I1⟩ := runs_vector O L I hm (by omega : a ≤ maxAd) count fp
    obtain ⟨s2, r2, I2⟩ := ih (a + 1) (count + 1) (fp ++ record t.spec.encrypt m a count) s1 I1 (by omega)
    refine ⟨s2, runs_bind (runs_branch _ _ _) (runs_bind r1 (runs_if_false (by simp)
      (runs_eq r2 ?_))), I2⟩
    rw [adText, List.append_assoc, show count + 1 + n = count + (n + 1) by omega]

/-- Records for `mlen`, `mlen + 1`, ... -/
def mText (E : (K N A M : List Byte) → List Byte) (maxAd : Nat) : (n m count : Nat) → Text
  | 0, _, _ => []
  | n + 1, m, count => adText E m (maxAd + 1) 0 count ++ mText E maxAd n (m + 1) (count + (maxAd + 1))

theorem runs_mLoop (O : b.Ok e maxM maxAd) (L : b.Limits t e maxM maxAd) (n : Nat) :
    ∀ (m count : Nat) (fp : Text) (s : St), b.Init s maxM maxAd → m + n ≤ maxM + 1 →
    ∃ s', Runs (mLoop t.aead b maxAd n m count fp 0) e s (fp ++ mText t.spec.encrypt maxAd n m count, 0) s' ∧ b.Init s' maxM maxAd := by
  induction n with
  | zero =>
    intro m count fp s I _
    exact ⟨s, runs_bind (runs_branch _ _ _) (runs_eq (runs_pure _ _ _) (by simp [mText])), I⟩
  | succ n ih =>
    intro m count fp s I hm
    obtain ⟨s1, r1, I1⟩ := runs_adLoop O L (by omega : m ≤ maxM) (maxAd + 1) 0 count fp s I (by omega)
    obtain ⟨s2, r2, I2⟩ := ih (m + 1) (count + (maxAd + 1)) _ s1 I1 (by omega)
    refine ⟨s2, runs_bind (runs_branch _ _ _) (runs_if_false (by simp) (runs_bind r1
      (runs_eq r2 ?_))), I2⟩
    rw [mText, List.append_assoc]

theorem adText_eq (E : (K N A M : List Byte) → List Byte) (m n a count : Nat) :
    adText E m n a count = (List.range n).flatMap fun i => record E m (a + i) (count + i) := by
  induction n generalizing a count with
  | zero => rfl
  | succ n ih =>
    rw [adText, ih, List.range_succ_eq_map, List.flatMap_cons, List.flatMap_map]
    simp only [Nat.add_zero, Nat.succ_eq_add_one, Nat.add_assoc, Nat.add_comm 1]

theorem flatMap_range_succ {α : Type} (f : Nat → List α) (n : Nat) :
    (List.range (n + 1)).flatMap f = f 0 ++ (List.range n).flatMap fun i => f (i + 1) := by
  rw [List.range_succ_eq_map, List.flatMap_cons, List.flatMap_map]

theorem mText_eq (E : (K N A M : List Byte) → List Byte) (maxAd n m count : Nat) :
    mText E maxAd n m count = (List.range n).flatMap fun i => (List.range (maxAd + 1)).flatMap fun a =>
      record E (m + i) a (count + (maxAd + 1) * i + a) := by
  induction n generalizing m count with
  | zero => rfl
  | succ n ih =>
    rw [mText, ih, adText_eq, flatMap_range_succ _ n]
    have h1 : ∀ i, m + 1 + i = m + (i + 1) := by intros; omega
    have h2 : ∀ i a, count + (maxAd + 1) + (maxAd + 1) * i + a = count + (maxAd + 1) * (i + 1) + a := by
      intro i a; rw [Nat.mul_add (maxAd + 1) i 1]; omega
    simp only [h1, h2, Nat.mul_zero, Nat.add_zero, Nat.zero_add]

theorem katFile_eq (E : (K N A M : List Byte) → List Byte) (maxM maxAd : Nat) : mText E maxAd (maxM + 1) 0 1 = katFile E maxM maxAd := by
  have h : ∀ m a, 1 + (maxAd + 1) * m + a = (maxAd + 1) * m + a + 1 := by intros; omega
  rw [mText_eq, katFile]
  simp only [h, Nat.zero_add]

/-- The four calls of `init_buffer`. -/
theorem runs_init (O : b.Ok e maxM maxAd) (s : St) : ∃ s1 s2 s3 s4, Runs (initBuffer b.key 16) e s () s1 ∧
    Runs (initBuffer b.nonce 16) e s1 () s2 ∧ Runs (initBuffer b.msg maxM) e s2 () s3 ∧ Runs (initBuffer b.ad maxAd) e s3 () s4 ∧
    b.Init s4 maxM maxAd := by
  have h := O.objects
  simp only [List.nodup_cons, List.mem_cons, not_or, List.not_mem_nil, not_false_eq_true, List.nodup_nil, and_true] at h
  obtain ⟨⟨h01, h02, h03, h04, h05, h06, h07⟩, ⟨h12, h13, h14, h15, h16, h17⟩, ⟨h23, h24, h25, h26, h27⟩, -⟩ := h
  have D : ∀ (s : St) (p : Ptr) (bs : List Byte) (q : Ptr) (n : Nat), q.blk ≠ p.blk → bytesAt (putBytes s p bs) q n = bytesAt s q n :=
    fun s p bs q n hh => bytesAt_putBytes_disjoint _ _ _ _ _ (disjoint_of_blk hh)
  refine ⟨_, _, _, _, runs_initBuffer O.key, runs_initBuffer O.nonce, runs_initBuffer O.msg, runs_initBuffer O.ad, ?_, ?_, ?_, ?_⟩
  · rw [D _ _ _ _ _ h04, D _ _ _ _ _ h02, D _ _ _ _ _ h01, bytesAt_putBytes_same' _ _ _ (by simp)]
  · rw [D _ _ _ _ _ h14, D _ _ _ _ _ h12, bytesAt_putBytes_same' _ _ _ (by simp)]
  · rw [D _ _ _ _ _ h24, bytesAt_putBytes_same' _ _ _ (by simp)]
  · rw [bytesAt_putBytes_same' _ _ _ (by simp)]

theorem runs_genkat (O : b.Ok e maxM maxAd) (L : b.Limits t e maxM maxAd) (s : St) :
    ∃ s', Runs (genkat t.aead b maxM maxAd true) e s (katFile t.spec.encrypt maxM maxAd, 0) s' := by
  obtain ⟨s1, s2, s3, s4, r1, r2, r3, r4, I⟩ := runs_init O s
  obtain ⟨s5, r5, -⟩ := runs_mLoop O L (maxM + 1) 0 1 [] s4 I (by omega)
  rw [List.nil_append, katFile_eq] at r5
  exact ⟨s5, runs_bind r1 (runs_bind r2 (runs_bind r3 (runs_bind r4 (runs_bind (runs_branch _ _ _) r5))))⟩

theorem runs_genkat_closed (A : Aead) (O : b.Ok e maxM maxAd) (s : St) :
    ∃ s', Runs (genkat A b maxM maxAd false) e s ([], -1) s' := by
  obtain ⟨s1, s2, s3, s4, r1, r2, r3, r4, I⟩ := runs_init O s
  exact ⟨s4, runs_bind r1 (runs_bind r2 (runs_bind r3 (runs_bind r4 (runs_bind (runs_branch _ _ _) (runs_pure _ _ _)))))⟩

theorem runs_demo (O : b.Ok e maxM maxAd) (L : b.Limits t e maxM maxAd) (s : St) :
    ∃ s', Runs (demo t.aead b maxM maxAd) e s (record t.spec.encrypt maxM maxAd 1, 0) s' := by
  obtain ⟨s1, s2, s3, s4, r1, r2, r3, r4, I⟩ := runs_init O s
  obtain ⟨s5, r5, -⟩ := runs_vector O L I (Nat.le_refl _) (Nat.le_refl _) 1 []
  exact ⟨s5, runs_bind r1 (runs_bind r2 (runs_bind r3 (runs_bind r4 r5)))⟩

/-! ## The benchmarks -/

theorem not_inBuf {p q : Ptr} {n m i : Nat} (h : Disjoint p n q m) (hi : i < n) : ¬ InBuf q m p.blk (p.off + i) := by
  unfold Disjoint at h
  rintro ⟨h1, h2, h3⟩
  omega

theorem runs_repeat {a m : Nat} (V : ValidEnc e (b.enc m a)) (L : t.limits.Enc e (b.enc m a)) (hm : b.msg.blk ≠ b.ct.blk)
    (n i : Nat) (s : St) :
    ∃ s', Runs (forN n i (fun _ (_ : Unit) => do
        let _ ← t.aead.encrypt (b.enc m a)
        pure ()) ()) e s () s' ∧
      (∀ blk off, ¬ InBuf b.ct (m + 16) blk off → ¬ InBuf b.clen 8 blk off → s'.mem blk off = s.mem blk off) ∧
      (0 < n → bytesAt s' b.ct (m + 16) =
        t.spec.encrypt (bytesAt s b.key 16) (bytesAt s b.nonce 16) (bytesAt s b.ad a) (bytesAt s b.msg m)) := by
  induction n generalizing i s with
  | zero => exact ⟨s, runs_bind (runs_branch _ _ _) (runs_pure _ _ _), fun _ _ _ _ => rfl, fun h => absurd h (Nat.lt_irrefl 0)⟩
  | succ n ih =>
    obtain ⟨s1, r1, -⟩ := t.encryptOK e s _ V L
    have c1 : bytesAt s1 b.ct (m + 16) =
        t.spec.encrypt (bytesAt s b.key 16) (bytesAt s b.nonce 16) (bytesAt s b.ad a) (bytesAt s b.msg m) := enc_c V L r1
    have f1 : ∀ blk off, ¬ InBuf b.ct (m + 16) blk off → ¬ InBuf b.clen 8 blk off → s1.mem blk off = s.mem blk off :=
      fun blk off h1 h2 => enc_frame V L r1 h1 h2
    have D : ∀ (p : Ptr) (k : Nat), Disjoint p k b.ct (m + 16) → Disjoint p k b.clen 8 → bytesAt s1 p k = bytesAt s p k := by
      intro p k h1 h2
      unfold bytesAt
      apply List.map_congr_left
      intro j hj
      exact f1 _ _ (not_inBuf h1 (List.mem_range.1 hj)) (not_inBuf h2 (List.mem_range.1 hj))
    obtain ⟨s2, r2, f2, c2⟩ := ih (i + 1) s1
    refine ⟨s2, runs_bind (runs_branch _ _ _) (runs_bind (runs_bind r1 (runs_pure _ _ _)) r2), fun blk off h1 h2 => (f2 _ _ h1 h2).trans (f1 _ _ h1 h2),
      fun _ => ?_⟩
    cases n with
    | zero =>
      obtain ⟨-, rfl⟩ := r2.det (runs_bind (runs_branch _ _ _) (runs_pure _ _ _))
      exact c1
    | succ n =>
      rw [c2 (Nat.succ_pos _), D b.key _ V.c_k.symm V.clen_k.symm, D b.nonce _ V.c_npub.symm V.clen_npub.symm,
        D b.ad a V.c_ad.symm V.clen_ad.symm, D b.msg m (disjoint_of_blk hm) V.clen_m.symm]

theorem runs_bulk (O : b.Ok e maxM maxAd) (L : b.Limits t e maxM maxAd) {n : Nat} (hn : 0 < n) (s : St) :
    ∃ s', Runs (bulk t.aead b n maxM maxAd) e s 0 s' ∧
      bytesAt s' b.ct (maxM + 16) = t.spec.encrypt (ramp 16) (ramp 16) (ramp maxAd) (ramp maxM) := by
  obtain ⟨s1, s2, s3, s4, r1, r2, r3, r4, I⟩ := runs_init O s
  have hb : b.msg.blk ≠ b.ct.blk := by
    have h := O.objects
    simp only [List.nodup_cons, List.mem_cons, not_or, List.not_mem_nil, not_false_eq_true, List.nodup_nil, and_true] at h
    exact h.2.2.1.2.2.1
  obtain ⟨s5, r5, -, c5⟩ := runs_repeat (O.validEnc (Nat.le_refl _) (Nat.le_refl _)) (L maxM maxAd (Nat.le_refl _) (Nat.le_refl _)).1 hb n 0 s4
  refine ⟨s5, runs_bind r1 (runs_bind r2 (runs_bind r3 (runs_bind r4 (runs_bind r5 (runs_pure _ _ _))))), ?_⟩
  rw [c5 hn, I.key, I.nonce, I.msg, I.ad]

/-! ## Hashing -/

/-- The arrays of `tests/genkat_hash.c`: different objects of the declared sizes. -/
structure HashBufs (msg digest : Ptr) (e : Env) (maxM : Nat) : Prop where
  wMsg : Writable e msg maxM
  wDigest : Writable e digest 32
  objects : msg.blk ≠ digest.blk
  maxM_lt : maxM < 2 ^ 64

variable {f : Ptr → Ptr → Nat → CM Int} {msg digest : Ptr}

theorem runs_hashLoop (hf : t.hash = some f) (O : HashBufs msg digest e maxM)
    (hal : ∀ m, m ≤ maxM → AlignedHash e ⟨digest, msg, m⟩) (n : Nat) :
    ∀ (m count : Nat) (fp : Text) (s : St), bytesAt s msg maxM = ramp maxM → m + n ≤ maxM + 1 →
    ∃ s', Runs (hashLoop f msg digest n m count fp) e s
      (fp ++ (List.range n).flatMap (fun i => hashRecord t.hashSpec (m + i) (count + i)), 0) s' := by
  induction n with
  | zero =>
    intro m count fp s I _
    exact ⟨s, runs_bind (runs_branch _ _ _) (runs_eq (runs_pure _ _ _) (by simp))⟩
  | succ n ih =>
    intro m count fp s I hm
    have hm' : m ≤ maxM := by omega
    have hmsg : bytesAt s msg m = ramp m := by rw [← bytesAt_take s msg maxM m hm', I, ramp_take _ _ hm']
    have V : ValidHash e ⟨digest, msg, m⟩ := ⟨O.wMsg.readable.mono hm', O.wDigest, by have := O.maxM_lt; show m < _; omega⟩
    have r := Target.hash_run hf (hal m hm') V s
    simp only [hmsg] at r
    have hd : bytesAt (putBytes s digest (t.hashSpec (ramp m))) digest 32 = t.hashSpec (ramp m) :=
      bytesAt_putBytes_same' _ _ _ (t.length_hashSpec _)
    obtain ⟨s2, r2⟩ := ih (m + 1) (count + 1)
      (fp ++ "Count = ".toList ++ Model.Prog.dec count ++ "\n".toList ++ line "Msg = " (bytesAt s msg m) ++
        line "MD = " (bytesAt (putBytes s digest (t.hashSpec (ramp m))) digest 32) ++ "\n".toList) (putBytes s digest (t.hashSpec (ramp m)))
      (by rw [bytesAt_putBytes_disjoint _ _ _ _ _ (disjoint_of_blk O.objects), I]) (by omega)
    refine ⟨s2, runs_bind (runs_branch _ _ _) (runs_bind (runs_fprintBstr V.inp _ _) (runs_bind r (runs_if_false (by simp)
      (runs_bind (runs_fprintBstr O.wDigest.readable _ _) (runs_eq r2 (congrArg (fun x => (x, (0 : Int))) ?_))))))⟩
    rw [hmsg, hd, flatMap_range_succ _ n]
    unfold hashRecord countLine
    rw [dec_eq]
    generalize "Count = ".toList = u1
    generalize "\n".toList = u2
    have h1 : ∀ i, m + 1 + i = m + (i + 1) := by intros; omega
    have h2 : ∀ i, count + 1 + i = count + (i + 1) := by intros; omega
    simp only [h1, h2, Nat.add_zero, List.append_assoc]

theorem runs_genkatHash (hf : t.hash = some f) (O : HashBufs msg digest e maxM)
    (hal : ∀ m, m ≤ maxM → AlignedHash e ⟨digest, msg, m⟩) (s : St) :
    ∃ s', Runs (genkatHash f msg digest maxM true) e s (hashFile t.hashSpec maxM, 0) s' := by
  obtain ⟨s2, r2⟩ := runs_hashLoop hf O hal (maxM + 1) 0 1 [] (putBytes s msg (ramp maxM)) (bytesAt_putBytes_same' _ _ _ (by simp)) (by omega)
  refine ⟨s2, runs_bind (runs_initBuffer O.wMsg) (runs_bind (runs_branch _ _ _) (runs_eq r2 (congrArg (fun x => (x, (0 : Int))) ?_)))⟩
  simp only [List.nil_append, Nat.zero_add, hashFile, Nat.add_comm 1]

theorem putBytes_twice (s : St) (p : Ptr) (x y : List Byte) (h : y.length = x.length) : putBytes (putBytes s p x) p y = putBytes s p y := by
  unfold putBytes
  simp only [St.mk.injEq, and_true]
  funext b o
  rw [h]
  split <;> rfl

theorem runs_repeatHash (hf : t.hash = some f) {m : Nat} (V : ValidHash e ⟨digest, msg, m⟩) (hal : AlignedHash e ⟨digest, msg, m⟩)
    (hd : Disjoint msg m digest 32) (n i : Nat) (s : St) :
    Runs (forN (n + 1) i (fun _ (_ : Unit) => do
        let _ ← f digest msg m
        pure ()) ()) e s () (putBytes s digest (t.hashSpec (bytesAt s msg m))) := by
  have r := Target.hash_run hf hal V s
  refine runs_bind (runs_branch _ _ _) (runs_bind (runs_bind r (runs_pure _ _ _)) ?_)
  induction n generalizing i with
  | zero => exact runs_bind (runs_branch _ _ _) (runs_pure _ _ _)
  | succ n ih =>
    have r2 := Target.hash_run hf hal V (putBytes s digest (t.hashSpec (bytesAt s msg m)))
    simp only at r2
    rw [bytesAt_putBytes_disjoint _ _ _ _ _ (by rw [t.length_hashSpec]; exact hd), putBytes_twice _ _ _ _ (by simp only [t.length_hashSpec])] at r2
    exact runs_bind (runs_branch _ _ _) (runs_bind (runs_bind r2 (runs_pure _ _ _)) (ih (i + 1)))

/-! ## The files determine the values -/

theorem hexDigit_inj : ∀ i j : Fin 16, hexDigit i.val = hexDigit j.val → i = j := by decide

theorem hexByte_inj {x y : Byte} (h : hex x = hex y) : x = y := by
  have hx := x.isLt
  have hy := y.isLt
  simp only [hex, List.cons.injEq, and_true] at h
  have h1 := hexDigit_inj ⟨x.toNat / 16, by omega⟩ ⟨y.toNat / 16, by omega⟩ h.1
  have h2 := hexDigit_inj ⟨x.toNat % 16, by omega⟩ ⟨y.toNat % 16, by omega⟩ h.2
  simp only [Fin.mk.injEq] at h1 h2
  exact BitVec.eq_of_toNat_eq (by omega)

theorem flatMap_inj {α β : Type} (l : List α) (f g : α → List β) (hl : ∀ x ∈ l, (f x).length = (g x).length)
    (h : l.flatMap f = l.flatMap g) : ∀ x ∈ l, f x = g x := by
  induction l with
  | nil => simp
  | cons a l ih =>
    rw [List.flatMap_cons, List.flatMap_cons] at h
    obtain ⟨h1, h2⟩ := List.append_inj h (hl a (List.mem_cons_self ..))
    intro x hx
    rcases List.mem_cons.1 hx with rfl | hx
    · exact h1
    · exact ih (fun y hy => hl y (List.mem_cons_of_mem _ hy)) h2 x hx

theorem length_hex (bs : List Byte) : (bs.flatMap hex).length = 2 * bs.length := by
  induction bs with
  | nil => rfl
  | cons x l ih => rw [List.flatMap_cons, List.length_append, ih, List.length_cons]; simp only [hex, List.length_cons, List.length_nil]; omega

theorem hex_inj {x y : List Byte} (h : x.flatMap hex = y.flatMap hex) : x = y := by
  induction x generalizing y with
  | nil =>
    have := congrArg List.length h
    rw [length_hex, length_hex, List.length_nil] at this
    exact (List.length_eq_zero_iff.1 (by omega)).symm
  | cons a x ih =>
    cases y with
    | nil =>
      have := congrArg List.length h
      rw [length_hex, length_hex, List.length_nil, List.length_cons] at this
      omega
    | cons b y =>
      rw [List.flatMap_cons, List.flatMap_cons] at h
      obtain ⟨h1, h2⟩ := List.append_inj h rfl
      rw [hexByte_inj h1, ih h2]

theorem length_line (label : String) (x y : List Byte) (h : x.length = y.length) : (line label x).length = (line label y).length := by
  simp only [line, List.length_append, length_hex, h]

theorem line_inj {label : String} {x y : List Byte} (h : line label x = line label y) : x = y :=
  hex_inj (List.append_cancel_left (List.append_cancel_right h))

theorem katFile_inj {E E' : (K N A M : List Byte) → List Byte} {maxM maxAd : Nat}
    (hl : ∀ m a, (E (ramp 16) (ramp 16) (ramp a) (ramp m)).length = (E' (ramp 16) (ramp 16) (ramp a) (ramp m)).length)
    (h : katFile E maxM maxAd = katFile E' maxM maxAd) (m a : Nat) (hm : m ≤ maxM) (ha : a ≤ maxAd) :
    E (ramp 16) (ramp 16) (ramp a) (ramp m) = E' (ramp 16) (ramp 16) (ramp a) (ramp m) := by
  have hr : ∀ m a count, (record E m a count).length = (record E' m a count).length := by
    intro m a count
    unfold record
    rw [List.length_append, List.length_append, List.length_append (bs := "\n".toList), List.length_append (bs := line "CT = " _),
      length_line _ _ _ (hl m a)]
  have h1 := flatMap_inj _ _ _ (fun m _ => by
    rw [List.length_flatMap, List.length_flatMap]
    exact congrArg List.sum (List.map_congr_left fun a _ => hr _ _ _)) h m (List.mem_range.2 (by omega))
  have h2 := flatMap_inj _ _ _ (fun a _ => hr _ _ _) h1 a (List.mem_range.2 (by omega))
  exact line_inj (List.append_cancel_left (List.append_cancel_right h2))

theorem hashFile_inj {H H' : List Byte → List Byte} {maxM : Nat} (hl : ∀ m, (H (ramp m)).length = (H' (ramp m)).length)
    (h : hashFile H maxM = hashFile H' maxM) (m : Nat) (hm : m ≤ maxM) : H (ramp m) = H' (ramp m) := by
  have h1 := flatMap_inj _ _ _ (fun m _ => by
    unfold hashRecord
    rw [List.length_append, List.length_append, List.length_append (bs := "\n".toList), List.length_append (bs := line "MD = " _),
      length_line _ _ _ (hl m)]) h m (List.mem_range.2 (by omega))
  exact line_inj (List.append_cancel_left (List.append_cancel_right h1))

end Model.Prog
