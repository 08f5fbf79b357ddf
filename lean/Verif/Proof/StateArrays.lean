import Verif.Model.StateArrays
import Verif.Proof.Placement
import Verif.Spec.AuthKey
/-!
# `isapa128v20/opt_64` with its arrays `state` in memory
-/

namespace C

theorem bytesAt_putBytes_part (s : St) (p : Ptr) (X : List Byte) (i n : Nat) (h : i + n ≤ X.length) :
    bytesAt (putBytes s p X) (p + i) n = (X.drop i).take n := by
  have h1 := bytesAt_drop (putBytes s p X) p X.length i
  rw [bytesAt_putBytes_same] at h1
  rw [h1, bytesAt_take _ _ _ _ (by omega)]

theorem putBytes_over (s : St) (p : Ptr) (X Y Z : List Byte) (h : X.length = Y.length) :
    putBytes (putBytes s p (X ++ Z)) p Y = putBytes s p (Y ++ Z) := by
  refine St.ext (s := putBytes (putBytes s p (X ++ Z)) p Y) (t := putBytes s p (Y ++ Z)) ?_ rfl rfl
  funext b o
  simp only [putBytes_mem, List.length_append, h]
  by_cases hb : b = p.blk ∧ p.off ≤ o ∧ o < p.off + Y.length
  · rw [if_pos hb, if_pos (by omega)]
    simp only [List.getD, List.getElem?_append]
    rw [if_pos (by omega)]
  · rw [if_neg hb]
    by_cases hc : b = p.blk ∧ p.off ≤ o ∧ o < p.off + (Y.length + Z.length)
    · rw [if_pos hc, if_pos hc]
      simp only [List.getD, List.getElem?_append]
      rw [if_neg (by omega), if_neg (by omega), h]
    · rw [if_neg hc, if_neg hc]

end C

namespace Model
open C

theorem SameExcept.refl (n : Nat) (u v : Ptr) (s : St) : SameExcept n u v s s := fun _ _ _ _ => rfl

theorem SameExcept.put {n : Nat} {u v : Ptr} {s s' : St} (h : SameExcept n u v s s') (p : Ptr) (bs : List Byte) :
    SameExcept n u v (putBytes s p bs) (putBytes s' p bs) := by
  intro b o h1 h2
  rw [putBytes_mem, putBytes_mem, h b o h1 h2]

theorem SameExcept.left {n : Nat} {u v : Ptr} {s s' : St} {bs : List Byte} (hb : bs.length ≤ n) (h : SameExcept n u v s s') :
    SameExcept n u v (putBytes s u bs) s' := by
  intro b o h1 h2
  rw [putBytes_mem, if_neg (by unfold InBuf at h1; omega), h b o h1 h2]

theorem SameExcept.right {n : Nat} {u v : Ptr} {s s' : St} {bs : List Byte} (hb : bs.length ≤ n) (h : SameExcept n u v s s') :
    SameExcept n u v (putBytes s v bs) s' := by
  intro b o h1 h2
  rw [putBytes_mem, if_neg (by unfold InBuf at h2; omega), h b o h1 h2]

/-- Buffers of the caller have the same contents. -/
theorem SameExcept.bytes {k : Nat} {u v : Ptr} {s s' : St} (h : SameExcept k u v s s') {p : Ptr} {n : Nat} (h1 : Disjoint u k p n)
    (h2 : Disjoint v k p n) : bytesAt s p n = bytesAt s' p n := by
  apply List.ext_getElem
  · simp
  · intro i hi hi'
    simp only [length_bytesAt] at hi
    rw [getElem_bytesAt, getElem_bytesAt]
    unfold Disjoint at h1 h2
    refine h _ _ ?_ ?_ <;> unfold InBuf <;> omega

/-- What `isap_enc` does if its local array of `n` bytes is at `u`: it leaves `E K N` there. -/
def EncIn (P : Spec.Params) (L : Limits) (n al : Nat) (u : Ptr) (E : List Byte → List Byte → List Byte)
    (enc : (k npub m : Ptr) → (mlen : Nat) → (c : Ptr) → CM Unit) : Prop :=
  ∀ (e : Env) (s : St) (k npub m : Ptr) (mlen : Nat) (c : Ptr),
    Aligned e L.al k 16 → Aligned e L.al npub 16 → Aligned e L.al m mlen → Aligned e L.al c mlen → mlen < L.maxLen →
    Readable e k 16 → Readable e npub 16 → Readable e m mlen → Writable e c mlen → OverlapOK c m mlen →
    Aligned e al u n → Writable e u n → Disjoint u n k 16 → Disjoint u n npub 16 → Disjoint u n m mlen →
    Runs (enc k npub m mlen c) e s () (putBytes (putBytes s u (E (bytesAt s k 16) (bytesAt s npub 16))) c
      (P.enc (bytesAt s k 16) (bytesAt s npub 16) (bytesAt s m mlen)))

/-- What `isap_mac` does if its local array of `n` bytes is at `v`. -/
def MacIn (P : Spec.Params) (L : Limits) (n al : Nat) (v : Ptr)
    (mac : (k npub ad : Ptr) → (adlen : Nat) → (c : Ptr) → (clen : Nat) → CM (List Byte)) : Prop :=
  ∀ (e : Env) (s : St) (k npub ad : Ptr) (adlen : Nat) (c : Ptr) (clen : Nat),
    Aligned e L.al k 16 → Aligned e L.al npub 16 → Aligned e L.al ad adlen → Aligned e L.al c clen →
    adlen < L.maxLen → clen < L.maxLen →
    Readable e k 16 → Readable e npub 16 → Readable e ad adlen → Readable e c clen →
    Aligned e al v n → Writable e v n → Disjoint v n k 16 →
    ∃ Z : List Byte, Z.length ≤ n ∧ Runs (mac k npub ad adlen c clen) e s
      (P.mac (bytesAt s k 16) (bytesAt s npub 16) (bytesAt s ad adlen) (bytesAt s c clen)) (putBytes s v Z)

section
variable {e : Env} {s : St} {P : Spec.Params} (W : P.Wf) {L : Limits} {I : Impl} {n al : Nat} {u v : Ptr}
  {E : List Byte → List Byte → List Byte} (hE24 : ∀ K N, K.length = 16 → N.length = 16 → (E K N).length = 24) (hn : 24 ≤ n)
  (HE : EncIn P L n al u E I.enc) (HM : MacIn P L n al v I.mac)
include W hE24 hn HE HM

/-- `crypto_aead_encrypt` with the arrays at `u` and `v`. -/
theorem encryptArrOK (htag : L.tal = I.tagAlign) (hd : I.tagAlign ∣ 16) {a : EncArgs} (V : ValidEnc e a) (B : L.Enc e a)
    (U : StateArray e a n u) (U' : StateArray e a n v) (hu : Aligned e al u n) (hv : Aligned e al v n) :
    ∃ s', Runs (I.aead.encrypt a) e s 0 s' ∧
      SameExcept n u v s' (putBytes (putBytes s a.clen (toLe64 (BitVec.ofNat 64 (a.mlen + 16)))) a.c
        (P.encrypt (bytesAt s a.k 16) (bytesAt s a.npub 16) (bytesAt s a.ad a.adlen) (bytesAt s a.m a.mlen))) ∧
      (0 < a.mlen → Disjoint u n v n → bytesAt s' u 24 = E (bytesAt s a.k 16) (bytesAt s a.npub 16)) := by
  generalize hs1 : putBytes s a.clen (toLe64 (BitVec.ofNat 64 (a.mlen + 16))) = s1
  have b1 : ∀ p n, Disjoint a.clen 8 p n → bytesAt s1 p n = bytesAt s p n := fun p n h => hs1 ▸ bytesAt_len h
  have hk := b1 _ _ V.clen_k
  have hN := b1 _ _ V.clen_npub
  have hA := b1 _ _ V.clen_ad
  have hM := b1 _ _ V.clen_m
  generalize hX : P.enc (bytesAt s a.k 16) (bytesAt s a.npub 16) (bytesAt s a.m a.mlen) = X
  have hXl : X.length = a.mlen := by rw [← hX]; simp
  have hEl := hE24 (bytesAt s a.k 16) (bytesAt s a.npub 16) (by simp) (by simp)
  generalize hE : E (bytesAt s a.k 16) (bytesAt s a.npub 16) = Y at *
  -- the state after the optional encryption
  have henc : ∃ s2, Runs (ifThen (a.mlen > 0) (I.enc a.k a.npub a.m a.mlen a.c)) e s1 () s2 ∧
      SameExcept n u v s2 (putBytes s1 a.c X) ∧ (0 < a.mlen → bytesAt s2 u 24 = Y) := by
    by_cases h0 : a.mlen > 0
    · have he := HE e s1 a.k a.npub a.m a.mlen a.c B.k B.npub B.m B.c B.mlen_lt V.k V.npub V.m (V.c.mono (by omega)) V.c_m hu U.wr U.k U.npub U.m
      rw [hk, hN, hM, hX, hE] at he
      refine ⟨_, runs_ifThen_true h0 he, ((SameExcept.refl n u v s1).left (by omega)).put _ _, fun _ => ?_⟩
      rw [bytesAt_putBytes_disjoint _ _ _ _ _ ((U.c.mono (by omega) (by omega))), bytesAt_putBytes_same' _ _ _ hEl]
    · have : X = [] := by apply List.length_eq_zero_iff.1; omega
      rw [this, putBytes_nil]
      exact ⟨_, runs_ifThen_false h0, SameExcept.refl n u v s1, fun h => absurd h h0⟩
  obtain ⟨s2, henc, hoff, hkey⟩ := henc
  have b2 : ∀ p w, Disjoint u n p w → Disjoint v n p w → Disjoint a.c (a.mlen + 16) p w → bytesAt s2 p w = bytesAt s1 p w := by
    intro p w h1 h2 h3
    rw [hoff.bytes h1 h2, bytesAt_putBytes_disjoint _ _ _ _ _ (h3.symm.mono (Nat.le_refl _) (by omega))]
  obtain ⟨Z, hZ, hm⟩ := HM e s2 a.k a.npub a.ad a.adlen a.c a.mlen B.k B.npub B.ad B.c B.adlen_lt B.mlen_lt V.k V.npub V.ad
    (V.c.readable.mono (show a.mlen ≤ a.mlen + 16 by omega)) hv U'.wr U'.k
  rw [b2 _ _ U.k U'.k V.c_k, b2 _ _ U.npub U'.npub V.c_npub, b2 _ _ U.ad U'.ad V.c_ad, hk, hN, hA,
    hoff.bytes (U.c.mono (Nat.le_refl _) (show a.mlen ≤ _ by omega)) (U'.c.mono (Nat.le_refl _) (by omega)),
    bytesAt_putBytes_same' _ _ _ hXl] at hm
  have hT := Spec.Params.length_mac W (K := bytesAt s a.k 16) (N := bytesAt s a.npub 16) (bytesAt s a.ad a.adlen) X
    (by simp) (by simp)
  have hst : Runs (do
      storeTag I.tagAlign (a.c + a.mlen) (P.mac (bytesAt s a.k 16) (bytesAt s a.npub 16) (bytesAt s a.ad a.adlen) X)
      pure (0 : Int)) e (putBytes s2 v Z) 0 _ :=
    runs_bind (runs_storeTag (htag ▸ B.tag) hd hT (V.c.add (Nat.le_refl _))) (runs_pure _ _ _)
  refine ⟨_, runs_bind (runs_storeLen V.clen) (hs1 ▸ runs_bind henc (runs_bind hm hst)), ?_, fun h0 huv => ?_⟩
  · have := putBytes_append s1 a.c X (P.mac (bytesAt s a.k 16) (bytesAt s a.npub 16) (bytesAt s a.ad a.adlen) X)
    rw [hXl] at this
    rw [Spec.Params.encrypt, hX, ← this]
    exact (hoff.right (by omega)).put _ _
  · rw [bytesAt_putBytes_disjoint _ _ _ _ _ (by
      rw [hT]; exact (disjoint_suffix U.c (show a.mlen + 16 ≤ a.mlen + 16 by omega)).mono (by omega) (Nat.le_refl _)),
      bytesAt_putBytes_disjoint _ _ _ _ _ (by exact huv.mono hn hZ), hkey h0]

/-- `crypto_aead_decrypt` with the arrays at `u` and `v`. -/
theorem decryptArrOK {a : DecArgs} (V : ValidDecIn e a) (B : L.Dec e a)
    (U : StateArrayDec e a n u) (U' : StateArrayDec e a n v) (hu : Aligned e al u n) (hv : Aligned e al v n) :
    (tagEq P (bytesAt s a.k 16) (bytesAt s a.npub 16) (bytesAt s a.ad a.adlen) (bytesAt s a.c (a.clen - 16))
        (bytesAt s (a.c + (a.clen - 16)) 16) → ValidDec e a →
      ∃ s', Runs (I.aead.decrypt a) e s 0 s' ∧
        SameExcept n u v s' (putBytes (putBytes s a.mlen (toLe64 (BitVec.ofNat 64 (a.clen - 16)))) a.m
          (P.enc (bytesAt s a.k 16) (bytesAt s a.npub 16) (bytesAt s a.c (a.clen - 16)))) ∧
        (16 < a.clen → bytesAt s' u 24 = E (bytesAt s a.k 16) (bytesAt s a.npub 16))) ∧
    (¬ tagEq P (bytesAt s a.k 16) (bytesAt s a.npub 16) (bytesAt s a.ad a.adlen) (bytesAt s a.c (a.clen - 16))
        (bytesAt s (a.c + (a.clen - 16)) 16) →
      ∃ s', Runs (I.aead.decrypt a) e s (-1) s' ∧
        SameExcept n u v s' (putBytes s a.mlen (toLe64 (BitVec.ofNat 64 (a.clen - 16))))) := by
  have hge := V.clen_ge
  have hlt := V.clen_lt
  generalize hs1 : putBytes s a.mlen (toLe64 (BitVec.ofNat 64 (a.clen - 16))) = s1
  have b1 : ∀ p n, Disjoint a.mlen 8 p n → bytesAt s1 p n = bytesAt s p n := fun p n h => hs1 ▸ bytesAt_len h
  have hcell : bytesAt s1 a.mlen 8 = toLe64 (BitVec.ofNat 64 (a.clen - 16)) := by
    rw [← hs1, bytesAt_putBytes_same' _ _ _ (by simp)]
  have hk := b1 _ _ V.mlen_k
  have hN := b1 _ _ V.mlen_npub
  have hA := b1 _ _ V.mlen_ad
  have hC := b1 _ _ (V.mlen_c.mono (Nat.le_refl _) (show a.clen - 16 ≤ a.clen by omega))
  have hT := b1 _ _ (disjoint_suffix V.mlen_c (show a.clen - 16 + 16 ≤ a.clen by omega))
  have hload1 : Runs (loadLen a.mlen) e s1 (a.clen - 16) s1 := runs_loadLen V.mlen (by omega) hcell rfl
  obtain ⟨Z, hZ, hm⟩ := HM e s1 a.k a.npub a.ad a.adlen a.c (a.clen - 16) B.k B.npub B.ad B.c B.adlen_lt B.clen_lt V.k V.npub V.ad
    (V.c.mono (show a.clen - 16 ≤ a.clen by omega)) hv U'.wr U'.k
  rw [hk, hN, hA, hC] at hm
  generalize hmac' : P.mac (bytesAt s a.k 16) (bytesAt s a.npub 16) (bytesAt s a.ad a.adlen) (bytesAt s a.c (a.clen - 16)) = T at *
  have hTl : T.length = 16 := by rw [← hmac']; exact Spec.Params.length_mac W _ _ (by simp) (by simp)
  generalize hs2 : putBytes s1 v Z = s2 at hm
  have b2 : ∀ p w, Disjoint v n p w → bytesAt s2 p w = bytesAt s1 p w := fun p w h => by
    rw [← hs2, bytesAt_putBytes_disjoint _ _ _ _ _ (h.symm.mono (Nat.le_refl _) hZ)]
  have hload2 : Runs (loadLen a.mlen) e s2 (a.clen - 16) s2 :=
    runs_loadLen V.mlen (by omega) ((b2 _ _ U'.mlen).trans hcell) rfl
  have hC2 := (b2 _ _ (U'.c.mono (Nat.le_refl _) (show a.clen - 16 ≤ a.clen by omega))).trans hC
  have hT2 := (b2 _ _ (disjoint_suffix U'.c (show a.clen - 16 + 16 ≤ a.clen by omega))).trans hT
  have hk2 := (b2 _ _ U'.k).trans hk
  have hN2 := (b2 _ _ U'.npub).trans hN
  generalize hT' : bytesAt s (a.c + (a.clen - 16)) 16 = T' at *
  have hTl' : T'.length = 16 := by rw [← hT']; simp
  have common : ∀ (r : Int) (sf : St),
      Runs (do
        let ok ← branch (decide ((List.range 16).foldl (fun cnt i => cnt + if T.getD i 0 = T'.getD i 0 then 1 else 0) 0 = 16))
        if ok then
          let l ← loadLen a.mlen
          ifThen (l > 0) do
            let l ← loadLen a.mlen
            I.enc a.k a.npub a.c l a.m
          pure 0
        else
          pure (-1)) e s2 r sf → Runs (I.aead.decrypt a) e s r sf := by
    intro r sf h
    refine runs_bind (runs_storeLen V.mlen) ?_
    rw [len_wrap hge hlt, hs1]
    refine runs_bind hload1 (runs_bind hm (runs_bind ?_ h))
    refine runs_forN_fold 16 0 0 (g := fun i cnt => cnt + if T.getD i 0 = T'.getD i 0 then 1 else 0) ?_
    intro j hj x
    rw [Nat.zero_add]
    refine runs_bind hload2 ?_
    have hb := runs_load8_at (e := e) (s := s2) (p := a.c + (a.clen - 16)) (n := 16) (i := j) (V.c.add (by omega)) hj
    rw [hT2, add_add] at hb
    exact runs_bind hb (runs_pure _ _ _)
  have hcount := count_eq T T' 16 (by omega) (by omega)
  rw [List.take_of_length_le (by omega), List.take_of_length_le (by omega)] at hcount
  have hoff : SameExcept n u v s2 s1 := hs2 ▸ (SameExcept.refl n u v s1).right (by omega)
  constructor
  · intro hacc V'
    have hacc : T' = T := by rw [tagEq, hmac'] at hacc; exact hacc
    by_cases h0 : a.clen - 16 > 0
    · have he := HE e s2 a.k a.npub a.c (a.clen - 16) a.m B.k B.npub B.c B.m B.clen_lt V.k V.npub (V.c.mono (by omega)) V'.m V'.m_c hu U.wr U.k U.npub
        (U.c.mono (Nat.le_refl _) (by omega))
      rw [hk2, hN2, hC2] at he
      have hEl := hE24 (bytesAt s a.k 16) (bytesAt s a.npub 16) (by simp) (by simp)
      refine ⟨_, common 0 _ (runs_if_true (hcount.2.2 hacc.symm)
        (runs_bind hload2 (runs_bind (runs_ifThen_true h0 (runs_bind hload2 he)) (runs_pure _ _ _)))),
        (hoff.left (by omega)).put _ _, fun _ => ?_⟩
      rw [bytesAt_putBytes_disjoint _ _ _ _ _ (by simpa using U.m.mono hn (Nat.le_refl _)),
        bytesAt_putBytes_same' _ _ _ hEl]
    · have : P.enc (bytesAt s a.k 16) (bytesAt s a.npub 16) (bytesAt s a.c (a.clen - 16)) = [] := by
        apply List.length_eq_zero_iff.1; simp; omega
      rw [this, putBytes_nil]
      exact ⟨_, common 0 _ (runs_if_true (hcount.2.2 hacc.symm)
        (runs_bind hload2 (runs_bind (runs_ifThen_false h0) (runs_pure _ _ _)))), hoff, fun h => absurd h (by omega)⟩
  · intro hacc
    have hacc : ¬ T = T' := fun h => hacc (by rw [tagEq, hmac']; exact h.symm)
    exact ⟨_, common (-1) _ (runs_if_false (fun h => hacc (hcount.2.1 h)) (runs_pure _ _ _)), hoff⟩

end

namespace A128.Opt64
open Spec Spec.Ascon

variable {e : Env} {s : St} {D : Cfg} {q : Nat → State → State} {P : Params} (O : CfgOK D q P)
include O

/-- The bytes that `isap_rk` stores. -/
def rkBytes (R : State) (outlen : Nat) : List Byte :=
  be64 R.x0 ++ be64 R.x1 ++ if outlen = 24 then be64 R.x2 else []

theorem runs_isapRkTo {k : Ptr} {y : Src} {out : Ptr} (i outlen : Nat) (hal : Aligned e 8 k 16) (hk : Readable e k 16)
    (hy : y.Ok e 16) (ho : Aligned e 8 out 40) (hw : Writable e out 40) :
    Runs (isapRkTo D k (D.iv i) y out outlen) e s ()
      (putBytes s out (rkBytes (rkW q P (bytesAt s k 16) (P.iv i) (y.bytes s 16)) outlen)) := by
  unfold isapRkTo
  refine runs_bind (runs_load64 (hal.add (by decide) (by omega)) (hk.add (by omega))) ?_
  refine runs_bind (runs_load64 (hal.add (by decide) (by omega)) (hk.add (by omega))) ?_
  rw [u64big_le64, u64big_le64, u64big_le64]
  have hinit : (⟨(ofBe64 (bytesAt s (k + 0) 8)), (ofBe64 (bytesAt s (k + 8) 8)), (ofBe64 (D.iv i)), 0, 0⟩ : State) =
      (initW (bytesAt s k 16) (P.iv i)) := by
    simp only [initW]
    rw [bytesAt_drop, ← ofBe64_take (bytesAt s k 16), bytesAt_take _ _ _ _ (by omega)]
    rw [O.iv]
    rfl
  rw [hinit, O.p12K]
  generalize hY : y.bytes s 16 = Y
  refine runs_bind (a := rkSt q P.sB (q P.sK (initW (bytesAt s k 16) (P.iv i))) Y 127) (s' := s) ?_ ?_
  · refine runs_forN_pure 127 0 (fun j => rkSt q P.sB (q P.sK (initW (bytesAt s k 16) (P.iv i))) Y j) ?_
    intro j hj
    rw [Nat.zero_add]
    refine runs_bind (runs_get hy (i := j / 8) (by omega)) ?_
    rw [hY, O.pB, yBit_ybit]
    exact runs_pure _ _ _
  · refine runs_bind (runs_get hy (i := 15) (by omega)) ?_
    rw [hY, O.p12K, lastBit_ybit]
    refine runs_bind (a := ()) (runs_store64 (ho.add (by decide) (by omega)) (hw.add (by omega))) ?_
    refine runs_bind (a := ()) (runs_store64 (ho.add (by decide) (by omega)) (hw.add (by omega))) ?_
    rw [toLe64_u64big, toLe64_u64big, add_zero]
    have h1 := putBytes_append s out (be64 (rkW q P (bytesAt s k 16) (P.iv i) Y).x0) (be64 (rkW q P (bytesAt s k 16) (P.iv i) Y).x1)
    rw [length_be64] at h1
    have h1 : putBytes (putBytes s out (be64 (q P.sK (xorBit (rkSt q P.sB (q P.sK (initW (bytesAt s k 16) (P.iv i))) Y 127)
        (ybit Y 127))).x0)) (out + 8) (be64 (q P.sK (xorBit (rkSt q P.sB (q P.sK (initW (bytesAt s k 16) (P.iv i))) Y 127)
        (ybit Y 127))).x1) = _ := h1
    unfold rkBytes
    by_cases h : outlen = 24
    · have h2 := putBytes_append s out (be64 (rkW q P (bytesAt s k 16) (P.iv i) Y).x0 ++
        be64 (rkW q P (bytesAt s k 16) (P.iv i) Y).x1) (be64 (rkW q P (bytesAt s k 16) (P.iv i) Y).x2)
      rw [if_pos h, ← h2, ← h1]
      refine runs_ifThen_true h (runs_eq2 (runs_store64 (ho.add (by decide) (by omega)) (hw.add (by omega))) rfl ?_)
      rw [toLe64_u64big, List.length_append, length_be64, length_be64]
      rfl
    · rw [if_neg h, List.append_nil, ← h1]
      exact runs_ifThen_false h


omit O in
/-- A word of the array. -/
theorem runs_word {st : Ptr} (i : Nat) {X : List Byte} (hi : i + 8 ≤ X.length) (h8 : i % 8 = 0) (hi' : i + 8 ≤ 40) (ho : Aligned e 8 st 40)
    (hw : Writable e st 40) : Runs (load64 (st + i)) e (putBytes s st X) (le64 ((X.drop i).take 8)) (putBytes s st X) := by
  rw [← bytesAt_putBytes_part s st X i 8 hi]
  exact runs_load64 (ho.add h8 hi') (hw.readable.add hi')

/-- The words of the state from which `isap_mac` derives its session key. -/
theorem macState_words {N : List Byte} (AD C : List Byte) (hN : N.length = 16) : P.macState N AD C = toBytes (macSt q P N AD C) := by
  have A := O.isAscon
  have hdom : ∀ S, P.domSep (toBytes S) = toBytes { S with x4 := S.x4 ^^^ 1 } := by
    intro S
    rw [Params.domSep_eq A.wf (by rw [length_toBytes, A.n]), A.n]
    exact xorAt_last S
  simp only [Params.macState, Params.ivA]
  rw [A.initState_words hN, A.pH, A.absorb_words, hdom, A.absorb_words]
  rfl

/-- `isap_mac` leaves in its array the session key, followed by the rest of the state. -/
theorem runs_macIn_exact {st k npub ad c : Ptr} {adlen clen : Nat} (hda : adlen < D.dm.ulong) (hdc : clen < D.dm.ulong)
    (hlk : Aligned e 8 k 16) (hln : Aligned e 8 npub 16) (hla : Aligned e 8 ad adlen) (hlc : Aligned e 8 c clen)
    (hk : Readable e k 16) (hn : Readable e npub 16) (had : Readable e ad adlen) (hc : Readable e c clen)
    (ho : Aligned e 8 st 40) (hw : Writable e st 40) (hdk : Disjoint st 40 k 16) :
    Runs (isapMacIn D st k npub ad adlen c clen) e s
      (P.mac (bytesAt s k 16) (bytesAt s npub 16) (bytesAt s ad adlen) (bytesAt s c clen))
      (putBytes s st (P.authKey (bytesAt s k 16) (bytesAt s npub 16) (bytesAt s ad adlen) (bytesAt s c clen) ++
        (P.macState (bytesAt s npub 16) (bytesAt s ad adlen) (bytesAt s c clen)).drop 16)) := by
  rw [O.isAscon.mac_words _ _ (by simp) (by simp), Params.authKey, macState_words O _ _ (by simp), take16, drop16, Params.ivKA,
    O.isAscon.rk_words 2 16 (by simp) (by simp), take16]
  generalize hS : macSt q P (bytesAt s npub 16) (bytesAt s ad adlen) (bytesAt s c clen) = S
  generalize hR : rkW q P (bytesAt s k 16) (P.iv 2) (be64 S.x0 ++ be64 S.x1) = R
  unfold isapMacIn
  refine runs_bind (runs_macAbsorb O hda hdc hln hla hlc hn had hc) ?_
  rw [hS]
  refine runs_bind (a := ()) (runs_store64 (ho.add (by decide) (by omega)) (hw.add (by omega))) ?_
  refine runs_bind (a := ()) (runs_store64 (ho.add (by decide) (by omega)) (hw.add (by omega))) ?_
  refine runs_bind (a := ()) (runs_store64 (ho.add (by decide) (by omega)) (hw.add (by omega))) ?_
  refine runs_bind (a := ()) (runs_store64 (ho.add (by decide) (by omega)) (hw.add (by omega))) ?_
  refine runs_bind (a := ()) (runs_store64 (ho.add (by decide) (by omega)) (hw.add (by omega))) ?_
  have hall : putBytes (putBytes (putBytes (putBytes (putBytes s (st + 0) (toLe64 (u64big S.x0))) (st + 8) (toLe64 (u64big S.x1)))
      (st + 16) (toLe64 (u64big S.x2))) (st + 24) (toLe64 (u64big S.x3))) (st + 32) (toLe64 (u64big S.x4)) =
      putBytes s st ((be64 S.x0 ++ be64 S.x1) ++ (be64 S.x2 ++ be64 S.x3 ++ be64 S.x4)) := by
    simp only [toLe64_u64big, add_zero]
    have h1 := putBytes_append s st (be64 S.x0) (be64 S.x1)
    have h2 := putBytes_append s st (be64 S.x0 ++ be64 S.x1) (be64 S.x2)
    have h3 := putBytes_append s st (be64 S.x0 ++ be64 S.x1 ++ be64 S.x2) (be64 S.x3)
    have h4 := putBytes_append s st (be64 S.x0 ++ be64 S.x1 ++ be64 S.x2 ++ be64 S.x3) (be64 S.x4)
    simp only [List.length_append, length_be64, Nat.reduceAdd] at h1 h2 h3 h4
    rw [h1, h2, h3, h4]
    simp only [List.append_assoc]
  rw [hall]
  have hrk := runs_isapRkTo O (s := putBytes s st ((be64 S.x0 ++ be64 S.x1) ++ (be64 S.x2 ++ be64 S.x3 ++ be64 S.x4))) (k := k)
    (y := .ext st) (out := st) 2 16 hlk hk (by exact hw.readable.mono (by omega)) ho hw
  have hk' : bytesAt (putBytes s st ((be64 S.x0 ++ be64 S.x1) ++ (be64 S.x2 ++ be64 S.x3 ++ be64 S.x4))) k 16 = bytesAt s k 16 :=
    bytesAt_putBytes_disjoint _ _ _ _ _ (by simpa using hdk.symm)
  have hy' : (Src.ext st).bytes (putBytes s st ((be64 S.x0 ++ be64 S.x1) ++ (be64 S.x2 ++ be64 S.x3 ++ be64 S.x4))) 16 =
      be64 S.x0 ++ be64 S.x1 := by
    have h := bytesAt_putBytes_part s st ((be64 S.x0 ++ be64 S.x1) ++ (be64 S.x2 ++ be64 S.x3 ++ be64 S.x4)) 0 16 (by simp)
    rw [add_zero] at h
    rw [Src.bytes, h, List.drop_zero, List.take_append_of_le_length (by simp), List.take_of_length_le (by simp)]
  rw [hk', hy', hR] at hrk
  refine runs_bind hrk ?_
  unfold rkBytes
  rw [if_neg (by decide), List.append_nil, putBytes_over _ _ _ _ _ (by simp)]
  refine runs_bind (runs_word 0 (by simp) (by decide) (by decide) ho hw) ?_
  refine runs_bind (runs_word 8 (by simp) (by decide) (by decide) ho hw) ?_
  refine runs_bind (runs_word 16 (by simp) (by decide) (by decide) ho hw) ?_
  refine runs_bind (runs_word 24 (by simp) (by decide) (by decide) ho hw) ?_
  refine runs_bind (runs_word 32 (by simp) (by decide) (by decide) ho hw) ?_
  refine Opt.runs_pure_eq ?_
  have e0 : ∀ (x : BitVec 64) (l : List Byte), (be64 x ++ l).take 8 = be64 x := fun x l => by
    rw [List.take_append_of_le_length (by simp), List.take_of_length_le (by simp)]
  have e1 : ∀ (x : BitVec 64) (l : List Byte) (n : Nat), (be64 x ++ l).drop (n + 8) = l.drop n := fun x l n => by
    rw [Nat.add_comm, ← length_be64 x, List.drop_append]
    simp
  have d (n : Nat) := e1 R.x0 (be64 R.x1 ++ (be64 S.x2 ++ (be64 S.x3 ++ be64 S.x4))) n
  rw [u64big_le64, u64big_le64, u64big_le64, u64big_le64, u64big_le64]
  simp only [List.append_assoc]
  rw [List.drop_zero, e0, d 0, d 8, d 16, d 24, e1 _ _ 0, e1 _ _ 8, e1 _ _ 16, e1 _ _ 0, e1 _ _ 8, e1 _ _ 0]
  simp only [List.drop_zero, e0]
  rw [List.take_of_length_le (by simp)]
  simp only [ofBe64_be64, toLe64_u64big, O.p12H, macW, hS, hR]

theorem length_authState {K N : List Byte} (AD C : List Byte) (hK : K.length = 16) (hN : N.length = 16) :
    (P.authKey K N AD C ++ (P.macState N AD C).drop 16).length = 40 := by
  rw [Params.authKey, macState_words O _ _ hN, take16, drop16, Params.ivKA, O.isAscon.rk_words 2 16 hK (by simp), take16]
  simp

theorem runs_macIn {st k npub ad c : Ptr} {adlen clen : Nat} (hda : adlen < D.dm.ulong) (hdc : clen < D.dm.ulong)
    (hlk : Aligned e 8 k 16) (hln : Aligned e 8 npub 16) (hla : Aligned e 8 ad adlen) (hlc : Aligned e 8 c clen)
    (hk : Readable e k 16) (hn : Readable e npub 16) (had : Readable e ad adlen) (hc : Readable e c clen)
    (ho : Aligned e 8 st 40) (hw : Writable e st 40) (hdk : Disjoint st 40 k 16) :
    ∃ Z : List Byte, Z.length ≤ 40 ∧ Runs (isapMacIn D st k npub ad adlen c clen) e s
      (P.mac (bytesAt s k 16) (bytesAt s npub 16) (bytesAt s ad adlen) (bytesAt s c clen)) (putBytes s st Z) :=
  ⟨_, Nat.le_of_eq (length_authState O _ _ (by simp) (by simp)), runs_macIn_exact O hda hdc hlk hln hla hlc hk hn had hc ho hw hdk⟩

theorem runs_encIn {st k npub m c : Ptr} {mlen : Nat} (hlk : Aligned e 8 k 16) (hln : Aligned e 8 npub 16) (hlm : Aligned e 8 m mlen)
    (hlc : Aligned e 8 c mlen) (hd : mlen < D.dm.ulong) (hk : Readable e k 16) (hn : Readable e npub 16) (hm : Readable e m mlen)
    (hc : Writable e c mlen) (hov : OverlapOK c m mlen) (ho : Aligned e 8 st 40) (hw : Writable e st 40) (hdk : Disjoint st 40 k 16)
    (hdn : Disjoint st 40 npub 16) (hdm : Disjoint st 40 m mlen) :
    Runs (isapEncIn D st k npub m mlen c) e s ()
      (putBytes (putBytes s st (P.rk (bytesAt s k 16) (P.iv 3) (bytesAt s npub 16) 24)) c
        (P.enc (bytesAt s k 16) (bytesAt s npub 16) (bytesAt s m mlen))) := by
  rw [O.isAscon.rk_words 3 24 (by simp) (by simp), take24]
  generalize hR : rkW q P (bytesAt s k 16) (P.iv 3) (bytesAt s npub 16) = R
  generalize hX : be64 R.x0 ++ be64 R.x1 ++ be64 R.x2 = X
  have hXl : X.length = 24 := by rw [← hX]; simp
  have b : ∀ p n, Disjoint st 40 p n → bytesAt (putBytes s st X) p n = bytesAt s p n := fun p n h =>
    bytesAt_putBytes_disjoint _ _ _ _ _ (h.symm.mono (Nat.le_refl _) (by omega))
  have hfull := encOK O e (putBytes s st X) k npub m mlen c hlk hln hlm hlc hd hk hn hm hc hov
  rw [b _ _ hdk, b _ _ hdn, b _ _ hdm] at hfull
  have hsplit : isapEnc D k npub m mlen c = isapRk D k (D.iv 3) (.ext npub) ⟨0, 0, 0, 0, 0⟩ 24 >>= encRest D npub m mlen c := rfl
  rw [hsplit] at hfull
  obtain ⟨t, s', h1, h2⟩ := runs_bind_inv hfull
  have hdet := h1.det (runs_isapRk O 3 _ 24 hlk hk (y := .ext npub) hn)
  rw [show (Src.ext npub).bytes (putBytes s st X) 16 = bytesAt s npub 16 from b _ _ hdn, b _ _ hdk, hR] at hdet
  obtain ⟨rfl, rfl⟩ := hdet
  have hrk := runs_isapRkTo O (s := s) (k := k) (y := .ext npub) (out := st) 3 24 hlk hk hn ho hw
  rw [show (Src.ext npub).bytes s 16 = bytesAt s npub 16 from rfl, hR, rkBytes, if_pos rfl, hX] at hrk
  unfold isapEncIn
  refine runs_bind hrk ?_
  refine runs_bind (runs_word 0 (by omega) (by decide) (by decide) ho hw) ?_
  refine runs_bind (runs_word 8 (by omega) (by decide) (by decide) ho hw) ?_
  refine runs_bind (runs_word 16 (by omega) (by decide) (by decide) ho hw) ?_
  have e0 : ∀ (x : BitVec 64) (l : List Byte), (be64 x ++ l).take 8 = be64 x := fun x l => by
    rw [List.take_append_of_le_length (by simp), List.take_of_length_le (by simp)]
  have hw' : ∀ x, le64 (be64 x) = u64big x := fun x => by rw [← toLe64_u64big, le64_toLe64]
  have w0 : le64 ((X.drop 0).take 8) = u64big R.x0 := by
    rw [← hX, List.drop_zero, List.append_assoc, e0, hw']
  have w1 : le64 ((X.drop 8).take 8) = u64big R.x1 := by
    rw [← hX, List.append_assoc, List.drop_append, List.drop_of_length_le (by simp)]
    simp only [length_be64, Nat.sub_self, List.drop_zero, List.nil_append, e0, hw']
  have w2 : le64 ((X.drop 16).take 8) = u64big R.x2 := by
    rw [← hX, List.drop_append, List.drop_of_length_le (by simp)]
    simp only [List.length_append, length_be64, Nat.reduceAdd, Nat.sub_self, List.drop_zero, List.nil_append]
    rw [List.take_of_length_le (by simp), hw']
  rw [w0, w1, w2]
  simp only [rkRes, if_true] at h2
  exact h2

theorem macIn (v : Ptr) : MacIn P ⟨8, 8, D.dm.ulong, id⟩ 40 8 v (implIn D u v).mac :=
  fun _ _ _ _ _ _ _ _ hlk hln hla hlc hda hdc hk hnp had hc ho hw hdk =>
    runs_macIn O hda hdc hlk hln hla hlc hk hnp had hc ho hw hdk

theorem encIn (u : Ptr) : EncIn P ⟨8, 8, D.dm.ulong, id⟩ 40 8 u (fun K N => P.rk K (P.iv 3) N 24) (implIn D u v).enc :=
  fun _ _ _ _ _ _ _ hlk hln hlm hlc hd hk hnp hm hc hov ho hw hdk hdn hdm =>
    runs_encIn O hlk hln hlm hlc hd hk hnp hm hc hov ho hw hdk hdn hdm

theorem length_key {K N : List Byte} (hK : K.length = 16) (hN : N.length = 16) : (P.rk K (P.iv 3) N 24).length = 24 := by
  rw [O.isAscon.rk_words 3 24 hK hN, take24]; simp

end A128.Opt64

namespace A128.Opt32
open Spec Spec.Ascon
open Opt (rep)

variable {e : Env} {s : St} {D : Prims} {q : Nat → State → State}

/-- The bytes of a 32-bit word. -/
def le32b (x : BitVec 32) : List Byte := (toLe64 (x.setWidth 64)).take 4

@[simp] theorem length_le32b (x : BitVec 32) : (le32b x).length = 4 := by simp [le32b]

theorem le64_le32b (x : BitVec 32) : (le64 (le32b x)).setWidth 32 = x := by
  apply BitVec.eq_of_getLsbD_eq
  intro i hi
  have h : (le32b x).getD (i / 8) 0 = (toLe64 (x.setWidth 64)).getD (i / 8) 0 := by
    simp only [le32b, List.getD, List.getElem?_take, if_pos (show i / 8 < 4 by omega)]
  rw [BitVec.getLsbD_setWidth, getLsbD_le64 _ (by omega), h, getLsbD_toLe64 _ (by omega) (by omega), BitVec.getLsbD_setWidth,
    show 8 * (i / 8) + i % 8 = i by omega]
  simp [hi, show i < 64 by omega]

theorem runs_store32 {p : Ptr} {x : BitVec 32} (hal : Aligned e 4 p 4) (hw : Writable e p 4) :
    Runs (store32 p x) e s () (putBytes s p (le32b x)) :=
  runs_store (by simpa [le32b] using hal) (by simpa [le32b] using hw) (by simp)

theorem runs_load32 {p : Ptr} (hal : Aligned e 4 p 4) (hr : Readable e p 4) :
    Runs (load32 p) e s ((le64 (bytesAt s p 4)).setWidth 32) s :=
  runs_bind (runs_load hal hr (by decide)) (runs_pure _ _ _)

/-- The key as it is in `ke`: the words of the bit-interleaved representation. -/
def keBytes (R : State) : List Byte :=
  le32b (Opt.Bi32.w1 R.x0) ++ le32b (Opt.Bi32.w0 R.x0) ++ le32b (Opt.Bi32.w1 R.x1) ++ le32b (Opt.Bi32.w0 R.x1) ++
    le32b (Opt.Bi32.w1 R.x2) ++ le32b (Opt.Bi32.w0 R.x2)

theorem runs_isapRkTo (O : PermOK D q) {k out : Ptr} {y : Src} (i : Nat) (hal : Aligned e 8 k 16) (hk : Readable e k 16) (hy : y.Ok e 16)
    (ho : Aligned e 4 out 24) (hw : Writable e out 24) :
    Runs (isapRkTo D k (iv i) y out 24) e s ()
      (putBytes s out (keBytes (rep φ (rkW q (PQ q) (bytesAt s k 16) ((PQ q).iv i) (y.bytes s 16))))) := by
  unfold isapRkTo
  refine runs_bind (runs_load64 (hal.add (by decide) (by omega)) (hk.add (by omega))) ?_
  refine runs_bind (runs_load64 (hal.add (by decide) (by omega)) (hk.add (by omega))) ?_
  rw [toWord_le64 (by simp), toWord_le64 (by simp), toWord_le64 rfl]
  have hinit : (⟨φ (ofBe64 (bytesAt s (k + 0) 8)), φ (ofBe64 (bytesAt s (k + 8) 8)), φ (ofBe64 (iv i)), 0, 0⟩ : State) =
      rep φ (initW (bytesAt s k 16) ((PQ q).iv i)) := by
    simp only [rep, initW, φ_zero]
    rw [bytesAt_drop, ← ofBe64_take (bytesAt s k 16), bytesAt_take _ _ _ _ (by omega)]
    rfl
  rw [hinit]
  refine runs_bind (O.pL e s _) ?_
  generalize hY : y.bytes s 16 = Y
  refine runs_bind (a := rep φ (rkSt q 12 (q 12 (initW (bytesAt s k 16) ((PQ q).iv i))) Y 127)) (s' := s) ?_ ?_
  · refine runs_forN_pure 127 0 (fun j => rep φ (rkSt q 12 (q 12 (initW (bytesAt s k 16) ((PQ q).iv i))) Y j)) ?_
    intro j hj
    rw [Nat.zero_add]
    refine runs_bind (runs_get hy (i := j / 8) (by omega)) ?_
    rw [hY, yBit_ybit, xorO_bit]
    exact O.pU e s _
  · refine runs_bind (runs_get hy (i := 15) (by omega)) ?_
    rw [hY, lastBit_ybit, xorO_bit]
    refine runs_bind (O.pL e s _) ?_
    have hR : q 12 (xorBit (rkSt q 12 (q 12 (initW (bytesAt s k 16) ((PQ q).iv i))) Y 127) (ybit Y 127)) =
      rkW q (PQ q) (bytesAt s k 16) ((PQ q).iv i) Y := rfl
    rw [hR]
    generalize rep φ (rkW q (PQ q) (bytesAt s k 16) ((PQ q).iv i) Y) = R
    refine runs_bind (a := ()) (runs_store32 (ho.add (by decide) (by omega)) (hw.add (by omega))) ?_
    refine runs_bind (a := ()) (runs_store32 (ho.add (by decide) (by omega)) (hw.add (by omega))) ?_
    refine runs_bind (a := ()) (runs_store32 (ho.add (by decide) (by omega)) (hw.add (by omega))) ?_
    refine runs_bind (a := ()) (runs_store32 (ho.add (by decide) (by omega)) (hw.add (by omega))) ?_
    refine runs_ifThen_true (by decide) (runs_eq2 (runs_bind (a := ()) (runs_store32 (ho.add (by decide) (by omega)) (hw.add (by omega)))
      (runs_store32 (ho.add (by decide) (by omega)) (hw.add (by omega)))) rfl ?_)
    unfold keBytes
    have h (X Y : List Byte) := putBytes_append s out X Y
    simp only [← h, List.length_append, length_le32b, Nat.reduceAdd, add_zero]

theorem runs_encIn (O : PermOK D q) {p k npub m c : Ptr} {mlen : Nat} (hlk : Aligned e 8 k 16) (hln : Aligned e 8 npub 16)
    (hlm : Aligned e 8 m mlen) (hlc : Aligned e 8 c mlen) (hd : mlen < Limits.byWordsTag.maxLen) (hk : Readable e k 16) (hn : Readable e npub 16)
    (hm : Readable e m mlen) (hc : Writable e c mlen) (hov : OverlapOK c m mlen) (ho : Aligned e 4 p 24) (hw : Writable e p 24)
    (hdk : Disjoint p 24 k 16) (hdn : Disjoint p 24 npub 16) (hdm : Disjoint p 24 m mlen) :
    Runs (isapEncIn D p k npub m mlen c) e s ()
      (putBytes (putBytes s p (keBytes (rep φ (rkW q (PQ q) (bytesAt s k 16) ((PQ q).iv 3) (bytesAt s npub 16))))) c
        ((PQ q).enc (bytesAt s k 16) (bytesAt s npub 16) (bytesAt s m mlen))) := by
  generalize hR : rep φ (rkW q (PQ q) (bytesAt s k 16) ((PQ q).iv 3) (bytesAt s npub 16)) = R
  generalize hX : keBytes R = X
  have hXl : X.length = 24 := by rw [← hX]; simp [keBytes]
  have b : ∀ x n, Disjoint p 24 x n → bytesAt (putBytes s p X) x n = bytesAt s x n := fun x n h =>
    bytesAt_putBytes_disjoint _ _ _ _ _ (h.symm.mono (Nat.le_refl _) (by omega))
  have hfull := encOK O e (putBytes s p X) k npub m mlen c hlk hln hlm hlc hd hk hn hm hc hov
  rw [b _ _ hdk, b _ _ hdn, b _ _ hdm] at hfull
  have hsplit : isapEnc D k npub m mlen c = isapRk D k (iv 3) (.ext npub) 24 >>= encRest D npub m mlen c := rfl
  rw [hsplit] at hfull
  obtain ⟨t, s', h1, h2⟩ := runs_bind_inv hfull
  have hdet := h1.det (runs_isapRk O 3 24 hlk hk (y := .ext npub) hn)
  rw [show (Src.ext npub).bytes (putBytes s p X) 16 = bytesAt s npub 16 from b _ _ hdn, b _ _ hdk, hR] at hdet
  obtain ⟨rfl, rfl⟩ := hdet
  have hrk := runs_isapRkTo O (s := s) (k := k) (y := .ext npub) (out := p) 3 hlk hk hn ho hw
  rw [show (Src.ext npub).bytes s 16 = bytesAt s npub 16 from rfl, hR, hX] at hrk
  have word : ∀ i, i + 4 ≤ 24 → i % 4 = 0 → Runs (load32 (p + i)) e (putBytes s p X) ((le64 ((X.drop i).take 4)).setWidth 32) (putBytes s p X) := by
    intro i hi h4
    rw [← bytesAt_putBytes_part s p X i 4 (by omega)]
    exact runs_load32 (ho.add h4 hi) (hw.readable.add hi)
  unfold isapEncIn
  refine runs_bind hrk ?_
  refine runs_bind (word 0 (by decide) (by decide)) ?_
  refine runs_bind (word 4 (by decide) (by decide)) ?_
  refine runs_bind (word 8 (by decide) (by decide)) ?_
  refine runs_bind (word 12 (by decide) (by decide)) ?_
  refine runs_bind (word 16 (by decide) (by decide)) ?_
  refine runs_bind (word 20 (by decide) (by decide)) ?_
  have e0 : ∀ (x : BitVec 32) (l : List Byte), (le64 ((le32b x ++ l).take 4)).setWidth 32 = x := fun x l => by
    rw [List.take_append_of_le_length (by simp), List.take_of_length_le (by simp), le64_le32b]
  have e1 : ∀ (x : BitVec 32) (l : List Byte) (n : Nat), (le32b x ++ l).drop (n + 4) = l.drop n := fun x l n => by
    rw [Nat.add_comm, ← length_le32b x, List.drop_append]
    simp
  have hX' : X = le32b (Opt.Bi32.w1 R.x0) ++ (le32b (Opt.Bi32.w0 R.x0) ++ (le32b (Opt.Bi32.w1 R.x1) ++ (le32b (Opt.Bi32.w0 R.x1) ++
      (le32b (Opt.Bi32.w1 R.x2) ++ (le32b (Opt.Bi32.w0 R.x2) ++ []))))) := by
    rw [← hX, keBytes]; simp only [List.append_assoc, List.append_nil]
  have hws : [(le64 ((X.drop 0).take 4)).setWidth 32, (le64 ((X.drop 4).take 4)).setWidth 32, (le64 ((X.drop 8).take 4)).setWidth 32,
      (le64 ((X.drop 12).take 4)).setWidth 32, (le64 ((X.drop 16).take 4)).setWidth 32, (le64 ((X.drop 20).take 4)).setWidth 32] =
      rkRes R 24 := by
    rw [hX', e1 _ _ 0, e1 _ _ 4, e1 _ _ 0, e1 _ _ 8, e1 _ _ 4, e1 _ _ 0, e1 _ _ 12, e1 _ _ 8, e1 _ _ 4, e1 _ _ 0,
      e1 _ _ 16, e1 _ _ 12, e1 _ _ 8, e1 _ _ 4, e1 _ _ 0]
    simp only [List.drop_zero, e0]
    rfl
  rw [hws]
  exact h2

theorem macIn (O : PermOK D q) (p v : Ptr) : MacIn (PQ q) .byWordsTag 24 4 v (implIn D p).mac :=
  fun e s _ _ _ _ _ _ hlk hln hla hlc hda hdc hk hnp had hc _ _ _ =>
    ⟨[], by simp, by
      rw [putBytes_nil]
      exact macOK O e s _ _ _ _ _ _ hlk hln hla hlc hda hdc hk hnp had hc had hc⟩

theorem encIn (O : PermOK D q) (p : Ptr) : EncIn (PQ q) .byWordsTag 24 4 p
    (fun K N => keBytes (rep φ (rkW q (PQ q) K ((PQ q).iv 3) N))) (implIn D p).enc :=
  fun _ _ _ _ _ _ _ hlk hln hlm hlc hd hk hnp hm hc hov ho hw hdk hdn hdm =>
    runs_encIn O hlk hln hlm hlc hd hk hnp hm hc hov ho hw hdk hdn hdm

end A128.Opt32
end Model
