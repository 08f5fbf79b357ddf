import Verif.Proof.AvxArrays
import Verif.Proof.StateAuthKey
/-!
# What `isap_mac_enc` of isapa128av20/avx_512 leaves in `state_mac`
-/

namespace Model.A128.Avx
open C Spec Spec.Ascon
open Opt64 (u64big toLe64_u64big lanesW)

variable {e : Env} {s : St}

/-- What is between the accesses to the arrays: the state of ISAP_MAC after everything has been absorbed. -/
theorem runs_mid {d : DataModel} {c m : Ptr} {mlen : Nat} {K N : List Byte} (A : List Byte) (hK : K.length = 16) (hN : N.length = 16)
    (hn : mlen < 2 ^ 63) (hd : mlen < d.ulong) (hm : Readable e m mlen) (hc : Writable e c mlen) (hov : OverlapOK c m mlen) {X : List Byte}
    (hX : isapA128a.enc K N (bytesAt s m mlen) = X) :
    ∃ v s2, Runs (doWhile (body d m c mlen) (i64 mlen) ⟨⟨encW p isapA128a K N, lanesW p (p 12 (initW N (isapA128a.iv 1))) A⟩, 0, 0, i64 mlen, 1⟩)
        e s v s2 ∧
      Runs (macRest d c v.remMac v.idxMac v.x.hi) e s2 (macSt p isapA128a N A X) (putBytes s c X) := by
  have hXl : X.length = mlen := by rw [← hX]; simp [Params.enc]
  have hi : i64 mlen = (mlen : Int) := by rw [i64, if_pos hn]
  rw [hi]
  generalize hS0 : p 12 (initW N (isapA128a.iv 1)) = S0
  have hloop := runs_doWhile (e := e) (f := body d m c mlen) (n := mlen)
    (locAt (encW p isapA128a K N) S0 A X mlen) (fun j => putBytes s c (X.take (16 * j)))
    (fun j hj => runs_body hK hN hX.symm hn hd hj hov hm hc S0 A)
  have hit : 1 ≤ iters mlen ∧ mlen ≤ 16 * iters mlen ∧ (iters mlen = 1 ∨ 16 * (iters mlen - 1) < mlen) := by
    unfold iters
    omega
  generalize iters mlen = J at *
  simp only [Nat.mul_zero, List.take_zero, putBytes_nil] at hloop
  rw [List.take_of_length_le (l := X) (i := 16 * J) (by omega)] at hloop
  have hl0 : locAt (encW p isapA128a K N) S0 A X mlen 0 = ⟨⟨encW p isapA128a K N, lanesW p S0 A⟩, 0, 0, mlen, 1⟩ := by
    simp only [locAt, Loc.mk.injEq]
    refine ⟨rfl, ?_, trivial, ?_, rfl⟩ <;> omega
  rw [hl0] at hloop
  refine ⟨_, _, hloop, ?_⟩
  obtain ⟨J, rfl⟩ : ∃ J', J = J' + 1 := ⟨J - 1, by omega⟩
  generalize hD : { absorbW p 12 S0 A with x4 := (absorbW p 12 S0 A).x4 ^^^ 1 } = D
  have hrest := runs_macRest (e := e) (s := putBytes s c X) hn hd hc.readable D J (by omega)
  rw [bytesAt_putBytes_same' _ _ _ hXl] at hrest
  simp only [locAt, macAt, Nat.add_sub_cancel, hD]
  rw [show ((8 * J : Nat) : Int) = 8 * (J : Int) by omega]
  have hmac : macSt p isapA128a N A X = absorbW p 12 D X := by
    rw [← hD, ← hS0]; rfl
  rw [hmac]
  exact hrest

/-- `isap_mac_enc` leaves in `state_mac` the session key, followed by the rest of the state. -/
theorem macEnc_leaves {d : DataModel} {se sm k npub ad c m : Ptr} {adlen mlen : Nat} (hlk : Aligned e 8 k 16) (hln : Aligned e 8 npub 16)
    (hla : Aligned e 8 ad adlen) (hda : adlen < d.ulong) (hn : mlen < 2 ^ 63) (hd : mlen < d.ulong)
    (hk : Readable e k 16) (hnp : Readable e npub 16) (had : Readable e ad adlen)
    (hm : Readable e m mlen) (hc : Writable e c mlen) (hov : OverlapOK c m mlen) (hck : Disjoint c mlen k 16)
    (he : Aligned e 8 se 40) (he' : Writable e se 40) (hm' : Aligned e 8 sm 40) (hm'' : Writable e sm 40)
    (ek : Disjoint se 40 k 16) (en : Disjoint se 40 npub 16) (ea : Disjoint se 40 ad adlen) (em : Disjoint se 40 m mlen)
    (mk : Disjoint sm 40 k 16) {T : List Byte} {s' : St} (h : Runs (isapMacEncIn d se sm k npub ad adlen c m mlen) e s T s') :
    T.length = 16 ∧
    bytesAt s' sm 40 = isapA128a.authKey (bytesAt s k 16) (bytesAt s npub 16) (bytesAt s ad adlen)
        (isapA128a.enc (bytesAt s k 16) (bytesAt s npub 16) (bytesAt s m mlen)) ++
      (isapA128a.macState (bytesAt s npub 16) (bytesAt s ad adlen)
        (isapA128a.enc (bytesAt s k 16) (bytesAt s npub 16) (bytesAt s m mlen))).drop 16 := by
  have O := cfgOK d
  generalize hX : isapA128a.enc (bytesAt s k 16) (bytesAt s npub 16) (bytesAt s m mlen) = X
  have hXl : X.length = mlen := by rw [← hX]; simp [Params.enc]
  have hst := runs_startIn (s := s) (d := d) hda hlk hln hla hk hnp had he he' en ea
  generalize hs0 : putBytes s se (encBytes (bytesAt s k 16) (bytesAt s npub 16)) = s0 at *
  have b : ∀ q n, Disjoint se 40 q n → bytesAt s0 q n = bytesAt s q n := fun q n h => by
    rw [← hs0]
    exact bytesAt_putBytes_disjoint _ _ _ _ _ (by rw [length_encBytes (by simp)]; exact h.symm)
  obtain ⟨v, s2, h2, h3⟩ := runs_mid (e := e) (s := s0) (d := d) (K := bytesAt s k 16) (N := bytesAt s npub 16) (bytesAt s ad adlen)
    (by simp) (by simp) hn hd hm hc hov (by rw [b _ _ em, hX])
  have hbk : bytesAt (putBytes s0 c X) k 16 = bytesAt s k 16 := by
    rw [bytesAt_putBytes_disjoint _ _ _ _ _ (by rw [hXl]; exact hck.symm), b _ _ ek]
  generalize hS : macSt p isapA128a (bytesAt s npub 16) (bytesAt s ad adlen) X = S at *
  have hf := runs_finishIn_exact (e := e) (s := putBytes s0 c X) (d := d) (st := sm) S _ hlk hk hm' hm'' mk rfl
  rw [hbk] at hf
  unfold isapMacEncIn at h
  obtain ⟨rfl, rfl⟩ := h.det (runs_bind hst (runs_bind h2 (runs_bind h3 hf)))
  refine ⟨by simp [tagW], ?_⟩
  rw [bytesAt_putBytes_same' _ _ _ (by simp), Params.authKey, Opt64.macState_words O _ _ (by simp), hS, take16, drop16, Params.ivKA,
    O.isAscon.rk_words 2 16 (by simp) (by simp), take16]

/-- `crypto_aead_encrypt` with the arrays at `se` and `sm`. -/
theorem encryptIn_leaves (d : DataModel) {a : EncArgs} {se sm : Ptr} (V : ValidEnc e a) (B : (limits d).Enc e a)
    (U : StateArray e a 40 se) (U' : StateArray e a 40 sm) (hu : Aligned e 8 se 40) (hv : Aligned e 8 sm 40) {r : Int} {s' : St}
    (h : Runs (encryptIn d se sm a) e s r s') :
    bytesAt s' sm 40 = isapA128a.authKey (bytesAt s a.k 16) (bytesAt s a.npub 16) (bytesAt s a.ad a.adlen)
        (isapA128a.enc (bytesAt s a.k 16) (bytesAt s a.npub 16) (bytesAt s a.m a.mlen)) ++
      (isapA128a.macState (bytesAt s a.npub 16) (bytesAt s a.ad a.adlen)
        (isapA128a.enc (bytesAt s a.k 16) (bytesAt s a.npub 16) (bytesAt s a.m a.mlen))).drop 16 := by
  obtain ⟨hm63, hmd⟩ := Nat.lt_min.1 (show a.mlen < min (2 ^ 63) d.ulong from B.mlen_lt)
  have hda := (Nat.lt_min.1 (show a.adlen < min (2 ^ 63) d.ulong from B.adlen_lt)).2
  unfold encryptIn at h
  obtain ⟨_, s1, h1, j1⟩ := runs_bind_inv h
  have d1 := (h1.det (runs_storeLen V.clen)).2
  have b1 : ∀ p n, Disjoint a.clen 8 p n → bytesAt s1 p n = bytesAt s p n := fun p n h => d1 ▸ bytesAt_len h
  obtain ⟨T, s2, h2, j2⟩ := runs_bind_inv j1
  obtain ⟨hT, hb⟩ := macEnc_leaves B.k B.npub B.ad hda hm63 hmd V.k V.npub V.ad V.m (V.c.mono (by omega)) V.c_m
    (V.c_k.mono (by omega) (Nat.le_refl _)) hu U.wr hv U'.wr U.k U.npub U.ad U.m U'.k h2
  obtain ⟨_, s3, h3, j3⟩ := runs_bind_inv j2
  rw [(j3.det (runs_pure _ _ _)).2, (h3.det (runs_storeTag B.tag (by decide) hT (V.c.add (by omega)))).2,
    bytesAt_putBytes_disjoint _ _ _ _ _ (by rw [hT]; exact disjoint_suffix U'.c (show a.mlen + 16 ≤ a.mlen + 16 by omega)), hb,
    b1 _ _ V.clen_k, b1 _ _ V.clen_npub, b1 _ _ V.clen_ad, b1 _ _ V.clen_m]

end Model.A128.Avx
