import Verif.Model.AvxArrays
import Verif.Proof.StateArrays
import Verif.Proof.A128aAvx
/-!
# `isapa128av20/avx_512` with its arrays `state_enc` and `state_mac` in memory
-/

namespace Model.A128.Avx
open C Spec Spec.Ascon
open Opt64 (u64big p12 isapRk isapRkTo absorbLanes rkRes rkBytes lanesW u64big_le64 toLe64_u64big u64big_u64big runs_word)

variable {e : Env} {s : St}

theorem take_be64 (x : BitVec 64) (l : List Byte) : (be64 x ++ l).take 8 = be64 x := by
  rw [List.take_append_of_le_length (by simp), List.take_of_length_le (by simp)]

theorem drop_be64 (x : BitVec 64) (l : List Byte) (n : Nat) : (be64 x ++ l).drop (n + 8) = l.drop n := by
  rw [Nat.add_comm, ← length_be64 x, List.drop_append]
  simp

/-- The contents of `state_enc`: the derived key and the nonce. -/
def encBytes (K N : List Byte) : List Byte := rkBytes (rkW p isapA128a K (isapA128a.iv 3) N) 24 ++ N

theorem length_encBytes {K N : List Byte} (h : N.length = 16) : (encBytes K N).length = 40 := by
  simp [encBytes, rkBytes, h]

theorem runs_startIn {d : DataModel} {se k npub ad : Ptr} {adlen : Nat} (hda : adlen < d.ulong) (hlk : Aligned e 8 k 16)
    (hln : Aligned e 8 npub 16) (hla : Aligned e 8 ad adlen) (hk : Readable e k 16) (hnp : Readable e npub 16)
    (had : Readable e ad adlen) (ho : Aligned e 8 se 40) (hw : Writable e se 40) (hdn : Disjoint se 40 npub 16)
    (hda' : Disjoint se 40 ad adlen) :
    Runs (startIn d se k npub ad adlen) e s
      ⟨encW p isapA128a (bytesAt s k 16) (bytesAt s npub 16),
        lanesW p (p 12 (initW (bytesAt s npub 16) (isapA128a.iv 1))) (bytesAt s ad adlen)⟩
      (putBytes s se (encBytes (bytesAt s k 16) (bytesAt s npub 16))) := by
  have hrk := Opt64.runs_isapRkTo (cfgOK d) (s := s) (k := k) (y := .ext npub) (out := se) 3 24 hlk hk hnp ho hw
  rw [show (Src.ext npub).bytes s 16 = bytesAt s npub 16 from rfl] at hrk
  generalize hN : bytesAt s npub 16 = N at *
  have hNl : N.length = 16 := by rw [← hN]; simp
  generalize hR : rkW p isapA128a (bytesAt s k 16) (isapA128a.iv 3) N = R at *
  have b : ∀ (X : List Byte), X.length ≤ 40 → ∀ q n, Disjoint se 40 q n → bytesAt (putBytes s se X) q n = bytesAt s q n :=
    fun X hX q n h => bytesAt_putBytes_disjoint _ _ _ _ _ (h.symm.mono (Nat.le_refl _) hX)
  have hn0 : bytesAt s (npub + 0) 8 = N.take 8 := by
    rw [← hN, bytesAt_take _ _ _ _ (by omega)]; rfl
  have hn1 : bytesAt s (npub + 8) 8 = N.drop 8 := by
    rw [← hN, bytesAt_drop]
  have hNN : N.take 8 ++ N.drop 8 = N := List.take_append_drop 8 N
  have d0 : Disjoint se 40 (npub + 0) 8 := hdn.mono (Nat.le_refl _) (by omega)
  have d1 : Disjoint se 40 (npub + 8) 8 := by
    unfold Disjoint at hdn ⊢
    simp only [add_off, add_blk] at *
    omega
  have hYl : (rkBytes R 24).length = 24 := by simp [rkBytes]
  have eN : encBytes (bytesAt s k 16) N = rkBytes R 24 ++ (N.take 8 ++ N.drop 8) := by rw [hNN, encBytes, hR]
  have h1 := putBytes_append s se (rkBytes R 24) (N.take 8)
  have h2 := putBytes_append s se (rkBytes R 24 ++ N.take 8) (N.drop 8)
  rw [hYl] at h1
  rw [List.length_append, hYl, List.length_take, hNl] at h2
  unfold startIn
  refine runs_bind hrk ?_
  refine runs_bind (runs_load64 (hln.add (by decide) (by omega)) (hnp.add (by omega))) ?_
  rw [b _ (by omega) _ _ d0, hn0]
  refine runs_bind (a := ()) (runs_store64 (ho.add (by decide) (by omega)) (hw.add (by omega))) ?_
  rw [toLe64_le64 (by simp; omega), h1]
  refine runs_bind (runs_load64 (hln.add (by decide) (by omega)) (hnp.add (by omega))) ?_
  rw [b _ (by simp; omega) _ _ d1, hn1]
  refine runs_bind (a := ()) (runs_store64 (ho.add (by decide) (by omega)) (hw.add (by omega))) ?_
  rw [toLe64_le64 (by simp; omega), show (32 : Nat) = 24 + min 8 16 from rfl, h2, List.append_assoc, ← eN]
  have hEl : (encBytes (bytesAt s k 16) N).length = 40 := length_encBytes hNl
  refine runs_bind (runs_load64 (hln.add (by decide) (by omega)) (hnp.add (by omega))) ?_
  refine runs_bind (runs_load64 (hln.add (by decide) (by omega)) (hnp.add (by omega))) ?_
  rw [b _ (by omega) _ _ d0, b _ (by omega) _ _ d1, hn0, hn1, u64big_le64, u64big_le64, u64big_le64, Opt64.p12_eq]
  refine runs_bind (Opt64.runs_absorbLanes Opt64.p12_eq _ hda hla had) ?_
  rw [b _ (by omega) _ _ hda']
  refine runs_bind (runs_word 0 (by omega) (by decide) (by decide) ho hw) ?_
  refine runs_bind (runs_word 8 (by omega) (by decide) (by decide) ho hw) ?_
  refine runs_bind (runs_word 16 (by omega) (by decide) (by decide) ho hw) ?_
  refine runs_bind (runs_word 24 (by omega) (by decide) (by decide) ho hw) ?_
  refine runs_bind (runs_word 32 (by omega) (by decide) (by decide) ho hw) ?_
  refine Opt.runs_pure_eq ?_
  have c (n : Nat) := drop_be64 R.x0 (be64 R.x1 ++ (be64 R.x2 ++ N)) n
  rw [encBytes, hR, rkBytes, if_pos rfl]
  simp only [List.append_assoc]
  rw [u64big_le64, u64big_le64, u64big_le64, u64big_le64, u64big_le64, List.drop_zero, take_be64, c 0, c 8, c 16, c 24,
    drop_be64 _ _ 0, drop_be64 _ _ 8, drop_be64 _ _ 16, drop_be64 _ _ 0, drop_be64 _ _ 8, List.drop_zero, List.drop_zero, List.drop_zero,
    take_be64, take_be64]
  simp only [ofBe64_be64, ofBe64_take]
  rw [encW, hR]
  rfl

/-- The tag, as words. -/
def tagW (R S : State) : List Byte :=
  be64 (p 12 ⟨R.x0, R.x1, S.x2, S.x3, S.x4⟩).x0 ++ be64 (p 12 ⟨R.x0, R.x1, S.x2, S.x3, S.x4⟩).x1

theorem runs_finishIn_exact {d : DataModel} {st k : Ptr} (S R : State) (hlk : Aligned e 8 k 16) (hk : Readable e k 16)
    (ho : Aligned e 8 st 40) (hw : Writable e st 40) (hdk : Disjoint st 40 k 16)
    (hR : rkW p isapA128a (bytesAt s k 16) (isapA128a.iv 2) (be64 S.x0 ++ be64 S.x1) = R) :
    Runs (finishIn d st k S) e s (tagW R S)
      (putBytes s st ((be64 R.x0 ++ be64 R.x1) ++ (be64 S.x2 ++ be64 S.x3 ++ be64 S.x4))) := by
  unfold finishIn
  refine runs_bind (a := ()) (runs_store64 (ho.add (by decide) (by omega)) (hw.add (by omega))) ?_
  refine runs_bind (a := ()) (runs_store64 (ho.add (by decide) (by omega)) (hw.add (by omega))) ?_
  refine runs_bind (a := ()) (runs_store64 (ho.add (by decide) (by omega)) (hw.add (by omega))) ?_
  refine runs_bind (a := ()) (runs_store64 (ho.add (by decide) (by omega)) (hw.add (by omega))) ?_
  refine runs_bind (a := ()) (runs_store64 (ho.add (by decide) (by omega)) (hw.add (by omega))) ?_
  have hall : putBytes (putBytes (putBytes (putBytes (putBytes s (st + 0) (toLe64 (u64big S.x0))) (st + 8) (toLe64 (u64big S.x1)))
      (st + 16) (toLe64 (u64big S.x2))) (st + 24) (toLe64 (u64big S.x3))) (st + 32) (toLe64 (u64big S.x4)) =
      putBytes s st ((be64 S.x0 ++ be64 S.x1) ++ (be64 S.x2 ++ be64 S.x3 ++ be64 S.x4)) := by
    simp only [toLe64_u64big, add_zero]
    have h1 := putBytes_append s st (be64 S.x0) (be64 S.x1)
    have h2 := putBytes_append s st (be64 S.x0 ++ be64 S.x1) (be64 S.x2)
    have h3 := putBytes_append s st (be64 S.x0 ++ be64 S.x1 ++ be64 S.x2) (be64 S.x3)
    have h4 := putBytes_append s st (be64 S.x0 ++ be64 S.x1 ++ be64 S.x2 ++ be64 S.x3) (be64 S.x4)
    simp only [List.length_append, length_be64, Nat.reduceAdd] at h1 h2 h3 h4
    rw [h1, h2, h3, h4]
    simp only [List.append_assoc]
  rw [hall]
  have hrk := Opt64.runs_isapRkTo (cfgOK d) (s := putBytes s st ((be64 S.x0 ++ be64 S.x1) ++ (be64 S.x2 ++ be64 S.x3 ++ be64 S.x4)))
    (k := k) (y := .ext st) (out := st) 2 16 hlk hk (by exact hw.readable.mono (by omega)) ho hw
  have hk' : bytesAt (putBytes s st ((be64 S.x0 ++ be64 S.x1) ++ (be64 S.x2 ++ be64 S.x3 ++ be64 S.x4))) k 16 = bytesAt s k 16 :=
    bytesAt_putBytes_disjoint _ _ _ _ _ (by simpa using hdk.symm)
  have hy' : (Src.ext st).bytes (putBytes s st ((be64 S.x0 ++ be64 S.x1) ++ (be64 S.x2 ++ be64 S.x3 ++ be64 S.x4))) 16 =
      be64 S.x0 ++ be64 S.x1 := by
    have h := bytesAt_putBytes_part s st ((be64 S.x0 ++ be64 S.x1) ++ (be64 S.x2 ++ be64 S.x3 ++ be64 S.x4)) 0 16 (by simp)
    rw [add_zero] at h
    rw [Src.bytes, h, List.drop_zero, List.take_append_of_le_length (by simp), List.take_of_length_le (by simp)]
  rw [hk', hy', hR] at hrk
  refine runs_bind hrk ?_
  unfold rkBytes
  rw [if_neg (by decide), List.append_nil, putBytes_over _ _ _ _ _ (by simp)]
  refine runs_bind (runs_word 0 (by simp) (by decide) (by decide) ho hw) ?_
  refine runs_bind (runs_word 8 (by simp) (by decide) (by decide) ho hw) ?_
  refine runs_bind (runs_word 16 (by simp) (by decide) (by decide) ho hw) ?_
  refine runs_bind (runs_word 24 (by simp) (by decide) (by decide) ho hw) ?_
  refine runs_bind (runs_word 32 (by simp) (by decide) (by decide) ho hw) ?_
  refine Opt.runs_pure_eq ?_
  have d (n : Nat) := drop_be64 R.x0 (be64 R.x1 ++ (be64 S.x2 ++ (be64 S.x3 ++ be64 S.x4))) n
  rw [u64big_le64, u64big_le64, u64big_le64, u64big_le64, u64big_le64]
  simp only [List.append_assoc]
  rw [List.drop_zero, take_be64, d 0, d 8, d 16, d 24, drop_be64 _ _ 0, drop_be64 _ _ 8, drop_be64 _ _ 16, drop_be64 _ _ 0,
    drop_be64 _ _ 8, drop_be64 _ _ 0]
  simp only [List.drop_zero, take_be64]
  rw [List.take_of_length_le (by simp)]
  simp only [ofBe64_be64, toLe64_u64big, Opt64.p12_eq, tagW]

theorem runs_finishIn {d : DataModel} {st k : Ptr} (S : State) (hlk : Aligned e 8 k 16) (hk : Readable e k 16)
    (ho : Aligned e 8 st 40) (hw : Writable e st 40) (hdk : Disjoint st 40 k 16) :
    ∃ Z : List Byte, Z.length ≤ 40 ∧ Runs (finishIn d st k S) e s
      (tagW (rkW p isapA128a (bytesAt s k 16) (isapA128a.iv 2) (be64 S.x0 ++ be64 S.x1)) S) (putBytes s st Z) :=
  ⟨_, by simp, runs_finishIn_exact S _ hlk hk ho hw hdk rfl⟩

/-- `isap_mac_enc` stores the ciphertext and returns its tag. -/
theorem runs_isapMacEncIn {d : DataModel} {se sm k npub ad c m : Ptr} {adlen mlen : Nat} (hlk : Aligned e 8 k 16) (hln : Aligned e 8 npub 16)
    (hla : Aligned e 8 ad adlen) (hda : adlen < d.ulong) (hn : mlen < 2 ^ 63) (hd : mlen < d.ulong)
    (hk : Readable e k 16) (hnp : Readable e npub 16) (had : Readable e ad adlen)
    (hm : Readable e m mlen) (hc : Writable e c mlen) (hov : OverlapOK c m mlen) (hck : Disjoint c mlen k 16)
    (he : Aligned e 8 se 40) (he' : Writable e se 40) (hm' : Aligned e 8 sm 40) (hm'' : Writable e sm 40)
    (ek : Disjoint se 40 k 16) (en : Disjoint se 40 npub 16) (ea : Disjoint se 40 ad adlen) (em : Disjoint se 40 m mlen)
    (mk : Disjoint sm 40 k 16) {X : List Byte}
    (hX : isapA128a.enc (bytesAt s k 16) (bytesAt s npub 16) (bytesAt s m mlen) = X) :
    ∃ Z : List Byte, Z.length ≤ 40 ∧ Runs (isapMacEncIn d se sm k npub ad adlen c m mlen) e s
      (isapA128a.mac (bytesAt s k 16) (bytesAt s npub 16) (bytesAt s ad adlen) X)
      (putBytes (putBytes (putBytes s se (encBytes (bytesAt s k 16) (bytesAt s npub 16))) c X) sm Z) := by
  have hXl : X.length = mlen := by rw [← hX]; simp [Params.enc]
  have hst := runs_startIn (s := s) hda hlk hln hla hk hnp had he he' en ea
  generalize hs0 : putBytes s se (encBytes (bytesAt s k 16) (bytesAt s npub 16)) = s0 at *
  have b : ∀ q n, Disjoint se 40 q n → bytesAt s0 q n = bytesAt s q n := fun q n h => by
    rw [← hs0]
    exact bytesAt_putBytes_disjoint _ _ _ _ _ (by rw [length_encBytes (by simp)]; exact h.symm)
  have hfull := runs_isapMacEnc (e := e) (s := s0) (X := X) hlk hln hla hda hn hd hk hnp had hm hc hov hck
    (by rw [b _ _ ek, b _ _ en, b _ _ em, hX])
  have hst' := runs_start (e := e) (s := s0) hda hlk hln hla hk hnp had
  rw [b _ _ ek, b _ _ en, b _ _ ea] at hfull hst'
  unfold isapMacEnc at hfull
  obtain ⟨x, s1, h1, hfull⟩ := runs_bind_inv hfull
  obtain ⟨rfl, rfl⟩ := h1.det hst'
  obtain ⟨v, s2, h2, hfull⟩ := runs_bind_inv hfull
  obtain ⟨S, s3, h3, hfull⟩ := runs_bind_inv hfull
  obtain ⟨t, s4, h4, hfull⟩ := runs_bind_inv hfull
  obtain ⟨rfl, rfl⟩ := h4.det (Opt64.runs_isapRk (cfgOK d) 2 _ 16 hlk hk (y := .loc _) (by simp [Src.Ok]))
  obtain ⟨hT, hs⟩ := hfull.det (runs_pure _ _ _)
  subst hs
  have hbk : bytesAt (putBytes s1 c X) k 16 = bytesAt s1 k 16 :=
    bytesAt_putBytes_disjoint _ _ _ _ _ (by rw [hXl]; exact hck.symm)
  obtain ⟨Z, hZ, hf⟩ := runs_finishIn (e := e) (s := putBytes s1 c X) (d := d) (st := sm) S hlk hk hm' hm'' mk
  refine ⟨Z, hZ, ?_⟩
  unfold isapMacEncIn
  refine runs_bind hst (runs_bind h2 (runs_bind h3 ?_))
  refine runs_eq2 hf ?_ rfl
  have hY : (Src.loc (toLe64 (u64big S.x0) ++ toLe64 (u64big S.x1))).bytes (putBytes s1 c X) 16 = be64 S.x0 ++ be64 S.x1 := by
    simp only [toLe64_u64big, Src.bytes]
    rw [List.take_of_length_le (by simp)]
  rw [hT, hY, toLe64_u64big, toLe64_u64big, Opt64.p12_eq]
  simp only [rkRes, Nat.reduceEqDiff, if_false, u64big_u64big]
  rfl

/-- `crypto_aead_encrypt` with the arrays at `se` and `sm`. -/
theorem encryptInOK (d : DataModel) {a : EncArgs} {se sm : Ptr} (V : ValidEnc e a) (B : (limits d).Enc e a)
    (U : StateArray e a 40 se) (U' : StateArray e a 40 sm) (hu : Aligned e 8 se 40) (hv : Aligned e 8 sm 40) :
    ∃ s', Runs (encryptIn d se sm a) e s 0 s' ∧
      SameExcept 40 se sm s' (putBytes (putBytes s a.clen (toLe64 (BitVec.ofNat 64 (a.mlen + 16)))) a.c
        (isapA128a.encrypt (bytesAt s a.k 16) (bytesAt s a.npub 16) (bytesAt s a.ad a.adlen) (bytesAt s a.m a.mlen))) ∧
      (Disjoint se 40 sm 40 → bytesAt s' se 24 = isapA128a.rk (bytesAt s a.k 16) (isapA128a.iv 3) (bytesAt s a.npub 16) 24) := by
  obtain ⟨hm63, hmd⟩ := Nat.lt_min.1 (show a.mlen < min (2 ^ 63) d.ulong from B.mlen_lt)
  have hda := (Nat.lt_min.1 (show a.adlen < min (2 ^ 63) d.ulong from B.adlen_lt)).2
  generalize hs1 : putBytes s a.clen (toLe64 (BitVec.ofNat 64 (a.mlen + 16))) = s1
  have b1 : ∀ p n, Disjoint a.clen 8 p n → bytesAt s1 p n = bytesAt s p n := fun p n h => hs1 ▸ bytesAt_len h
  have hk := b1 _ _ V.clen_k
  have hN := b1 _ _ V.clen_npub
  have hA := b1 _ _ V.clen_ad
  have hM := b1 _ _ V.clen_m
  generalize hX : isapA128a.enc (bytesAt s a.k 16) (bytesAt s a.npub 16) (bytesAt s a.m a.mlen) = X
  have hXl : X.length = a.mlen := by rw [← hX]; simp
  obtain ⟨Z, hZ, hrun⟩ := runs_isapMacEncIn (e := e) (s := s1) (d := d) (se := se) (sm := sm) (X := X) B.k B.npub B.ad hda hm63 hmd V.k
    V.npub V.ad V.m (V.c.mono (by omega)) V.c_m (V.c_k.mono (by omega) (Nat.le_refl _)) hu U.wr hv U'.wr U.k U.npub U.ad U.m U'.k
    (by rw [hk, hN, hM, hX])
  rw [hk, hN, hA] at hrun
  have hT := Spec.Params.length_mac (cfgOK .lp64).isAscon.wf (K := bytesAt s a.k 16) (N := bytesAt s a.npub 16) (bytesAt s a.ad a.adlen) X
    (by simp) (by simp)
  have hEl : (encBytes (bytesAt s a.k 16) (bytesAt s a.npub 16)).length = 40 := length_encBytes (by simp)
  refine ⟨_, runs_bind (runs_storeLen V.clen) (runs_bind (hs1 ▸ hrun)
    (runs_bind (runs_storeTag B.tag (by decide) hT (V.c.add (by omega))) (runs_pure _ _ _))), ?_, fun huv => ?_⟩
  · have := putBytes_append s1 a.c X (isapA128a.mac (bytesAt s a.k 16) (bytesAt s a.npub 16) (bytesAt s a.ad a.adlen) X)
    rw [hXl] at this
    rw [Spec.Params.encrypt, hX, ← this, hs1]
    exact ((((SameExcept.refl 40 se sm s1).left (by omega)).put _ _).right (by omega)).put _ _
  · rw [bytesAt_putBytes_disjoint _ _ _ _ _ (by
      rw [hT]; exact (disjoint_suffix U.c (show a.mlen + 16 ≤ a.mlen + 16 by omega)).mono (by omega) (Nat.le_refl _)),
      bytesAt_putBytes_disjoint _ _ _ _ _ (by exact huv.mono (by omega) hZ),
      bytesAt_putBytes_disjoint _ _ _ _ _ (by exact U.c.mono (by omega) (by omega))]
    have h := bytesAt_putBytes_part (putBytes s a.clen (toLe64 (BitVec.ofNat 64 (a.mlen + 16)))) se
      (encBytes (bytesAt s a.k 16) (bytesAt s a.npub 16)) 0 24 (by omega)
    rw [add_zero] at h
    rw [h, (cfgOK .lp64).isAscon.rk_words 3 24 (by simp) (by simp), take24, List.drop_zero, encBytes,
      List.take_append_of_le_length (by simp [rkBytes]), List.take_of_length_le (by simp [rkBytes]), rkBytes, if_pos rfl]

end Model.A128.Avx
