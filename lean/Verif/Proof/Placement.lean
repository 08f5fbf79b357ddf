import Verif.Model.Placement
import Verif.Proof.Targets
/-!
# Decryption with its local arrays in memory
-/

namespace Model
open C

/-- `crypto_aead_decrypt` with local arrays does what it should. -/
def DecryptAtOK (P : Spec.Params) (L : Limits) (al : Nat) (acc : (K N A C T : List Byte) → Prop)
    (f : Ptr → Ptr → DecArgs → CM Int) : Prop :=
  ∀ (e : Env) (s : St) (a : DecArgs) (u v : Ptr), ValidDecIn e a → L.Dec e a → LocalArray e a u → LocalArray e a v →
    Disjoint u 16 v 16 → Aligned e al u 16 → Aligned e al v 16 →
    (acc (bytesAt s a.k 16) (bytesAt s a.npub 16) (bytesAt s a.ad a.adlen) (bytesAt s a.c (a.clen - 16))
        (bytesAt s (a.c + (a.clen - 16)) 16) → ValidDec e a →
      ∃ s', Runs (f u v a) e s 0 s' ∧
        bytesAt s' u 16 = P.mac (bytesAt s a.k 16) (bytesAt s a.npub 16) (bytesAt s a.ad a.adlen) (bytesAt s a.c (a.clen - 16)) ∧
        SameOff u v s' (putBytes (putBytes s a.mlen (toLe64 (BitVec.ofNat 64 (a.clen - 16)))) a.m
          (P.enc (bytesAt s a.k 16) (bytesAt s a.npub 16) (bytesAt s a.c (a.clen - 16))))) ∧
    (¬ acc (bytesAt s a.k 16) (bytesAt s a.npub 16) (bytesAt s a.ad a.adlen) (bytesAt s a.c (a.clen - 16))
        (bytesAt s (a.c + (a.clen - 16)) 16) →
      ∃ s', Runs (f u v a) e s (-1) s' ∧
        bytesAt s' u 16 = P.mac (bytesAt s a.k 16) (bytesAt s a.npub 16) (bytesAt s a.ad a.adlen) (bytesAt s a.c (a.clen - 16)) ∧
        SameOff u v s' (putBytes s a.mlen (toLe64 (BitVec.ofNat 64 (a.clen - 16)))))

theorem SameOff.put {u v : Ptr} {s s' : St} (h : SameOff u v s s') (p : Ptr) (bs : List Byte) :
    SameOff u v (putBytes s p bs) (putBytes s' p bs) := by
  intro b o h1 h2
  rw [putBytes_mem, putBytes_mem, h b o h1 h2]

theorem sameOff_left {u v : Ptr} {s s' : St} {bs : List Byte} (hb : bs.length = 16) (h : SameOff u v s s') :
    SameOff u v (putBytes s u bs) s' := by
  intro b o h1 h2
  rw [putBytes_mem, hb, if_neg (by unfold InBuf at h1; exact h1), h b o h1 h2]

theorem sameOff_right {u v : Ptr} {s s' : St} {bs : List Byte} (hb : bs.length = 16) (h : SameOff u v s s') :
    SameOff u v (putBytes s v bs) s' := by
  intro b o h1 h2
  rw [putBytes_mem, hb, if_neg (by unfold InBuf at h2; exact h2), h b o h1 h2]

theorem sameOff_mem {u v : Ptr} {s s' : St} (h : s.mem = s'.mem) : SameOff u v s s' := by
  intro b o _ _; rw [h]

/-- The part of the function after the comparison, in a state `s2` in which the length and the inputs are as in `s`. -/
theorem runs_decryptTail {P : Spec.Params} {L : Limits} {enc : (k npub m : Ptr) → (mlen : Nat) → (c : Ptr) → CM Unit}
    (henc : EncOK P L enc) {e : Env} {s s2 : St} {a : DecArgs} (V : ValidDec e a) (B : L.Dec e a)
    (hlen : Runs (loadLen a.mlen) e s2 (a.clen - 16) s2) (hk : bytesAt s2 a.k 16 = bytesAt s a.k 16)
    (hN : bytesAt s2 a.npub 16 = bytesAt s a.npub 16) (hC : bytesAt s2 a.c (a.clen - 16) = bytesAt s a.c (a.clen - 16)) :
    Runs (do
      let l ← loadLen a.mlen
      ifThen (l > 0) do
        let l ← loadLen a.mlen
        enc a.k a.npub a.c l a.m
      pure (0 : Int)) e s2 0
      (putBytes s2 a.m (P.enc (bytesAt s a.k 16) (bytesAt s a.npub 16) (bytesAt s a.c (a.clen - 16)))) := by
  refine runs_bind hlen ?_
  refine runs_bind (a := ()) ?_ (runs_pure _ _ _)
  by_cases h0 : a.clen - 16 > 0
  · have he := henc e s2 a.k a.npub a.c (a.clen - 16) a.m B.k B.npub B.c B.m B.clen_lt V.k V.npub (V.c.mono (by omega)) V.m V.m_c
    rw [hk, hN, hC] at he
    exact runs_ifThen_true h0 (runs_bind hlen he)
  · have : P.enc (bytesAt s a.k 16) (bytesAt s a.npub 16) (bytesAt s a.c (a.clen - 16)) = [] := by
      apply List.length_eq_zero_iff.1; simp; omega
    rw [this, putBytes_nil]
    exact runs_ifThen_false h0

theorem len_wrap {n : Nat} (h : 16 ≤ n) (h' : n < 2 ^ 64) : BitVec.ofNat 64 (n + (2 ^ 64 - 16)) = BitVec.ofNat 64 (n - 16) := by
  apply BitVec.eq_of_toNat_eq
  simp only [BitVec.toNat_ofNat]
  rw [show n + (2 ^ 64 - 16) = n - 16 + 2 ^ 64 by omega, Nat.add_mod_right]

/-- Stores to the length cell and to the local array leave the contents of other buffers. -/
theorem bytesAt_len {s : St} {p q : Ptr} {n x : Nat} (h : Disjoint p 8 q n) :
    bytesAt (putBytes s p (toLe64 (BitVec.ofNat 64 x))) q n = bytesAt s q n :=
  bytesAt_putBytes_disjoint _ _ _ _ _ (by simpa using h.symm)

theorem bytesAt_arr {s : St} {p q : Ptr} {n : Nat} {bs : List Byte} (hb : bs.length = 16) (h : Disjoint p 16 q n) :
    bytesAt (putBytes s p bs) q n = bytesAt s q n :=
  bytesAt_putBytes_disjoint _ _ _ _ _ (by rw [hb]; exact h.symm)

theorem disjoint_suffix {p q : Ptr} {n k m : Nat} (h : Disjoint p n q m) (hk : k + 16 ≤ m) : Disjoint p n (q + k) 16 := by
  unfold Disjoint at *
  simp only [add_blk, add_off]; omega

theorem decryptAtOK {P : Spec.Params} (W : P.Wf) {L : Limits} {I : Impl} (hext : ∀ n, L.ext n ≤ n + 16)
    (hmac : MacOK P L I.mac) (henc : EncOK P L I.enc) (hd : I.tagAlign ∣ 16) :
    DecryptAtOK P L I.tagAlign (tagEq P) (fun u _ => I.decryptAt u) := by
  intro e s a u v V B U _ _ hal _
  have hge := V.clen_ge
  have hlt := V.clen_lt
  generalize hs1 : putBytes s a.mlen (toLe64 (BitVec.ofNat 64 (a.clen - 16))) = s1
  have b1 : ∀ p n, Disjoint a.mlen 8 p n → bytesAt s1 p n = bytesAt s p n := fun p n h => hs1 ▸ bytesAt_len h
  have hcell : bytesAt s1 a.mlen 8 = toLe64 (BitVec.ofNat 64 (a.clen - 16)) := by
    rw [← hs1, bytesAt_putBytes_same' _ _ _ (by simp)]
  have hk := b1 _ _ V.mlen_k
  have hN := b1 _ _ V.mlen_npub
  have hA := b1 _ _ V.mlen_ad
  have hC := b1 _ _ (V.mlen_c.mono (Nat.le_refl _) (show a.clen - 16 ≤ a.clen by omega))
  have hT := b1 _ _ (disjoint_suffix V.mlen_c (show a.clen - 16 + 16 ≤ a.clen by omega))
  have hload1 : Runs (loadLen a.mlen) e s1 (a.clen - 16) s1 := runs_loadLen V.mlen (by omega) hcell rfl
  have hm := hmac e s1 a.k a.npub a.ad a.adlen a.c (a.clen - 16) B.k B.npub B.ad B.c B.adlen_lt B.clen_lt V.k V.npub V.ad
      (V.c.mono (by omega)) B.over (V.c.mono (Nat.le_trans (hext _) (by omega)))
  rw [hk, hN, hA, hC] at hm
  generalize hmac' : P.mac (bytesAt s a.k 16) (bytesAt s a.npub 16) (bytesAt s a.ad a.adlen) (bytesAt s a.c (a.clen - 16)) = T at *
  have hTl : T.length = 16 := by rw [← hmac']; exact Spec.Params.length_mac W _ _ (by simp) (by simp)
  generalize hs2 : putBytes s1 u T = s2
  have b2 : ∀ p n, Disjoint u 16 p n → bytesAt s2 p n = bytesAt s1 p n := fun p n h => hs2 ▸ bytesAt_arr hTl h
  have hload2 : Runs (loadLen a.mlen) e s2 (a.clen - 16) s2 :=
    runs_loadLen V.mlen (by omega) ((b2 _ _ U.mlen).trans hcell) rfl
  have hu : bytesAt s2 u 16 = T := by rw [← hs2, bytesAt_putBytes_same' _ _ _ hTl]
  have hC2 := (b2 _ _ (U.c.mono (Nat.le_refl _) (show a.clen - 16 ≤ a.clen by omega))).trans hC
  have hT2 := (b2 _ _ (disjoint_suffix U.c (show a.clen - 16 + 16 ≤ a.clen by omega))).trans hT
  generalize hT' : bytesAt s (a.c + (a.clen - 16)) 16 = T' at *
  have hTl' : T'.length = 16 := by rw [← hT']; simp
  have common : ∀ (r : Int) (sf : St),
      Runs (do
        let ok ← branch (decide ((List.range 16).foldl (fun cnt i => cnt + if T.getD i 0 = T'.getD i 0 then 1 else 0) 0 = 16))
        if ok then
          let l ← loadLen a.mlen
          ifThen (l > 0) do
            let l ← loadLen a.mlen
            I.enc a.k a.npub a.c l a.m
          pure 0
        else
          pure (-1)) e s2 r sf → Runs (I.decryptAt u a) e s r sf := by
    intro r sf h
    refine runs_bind (runs_storeLen V.mlen) ?_
    rw [len_wrap hge hlt, hs1]
    refine runs_bind hload1 (runs_bind hm (runs_bind (runs_storeTag hal hd hTl U.wr) ?_))
    rw [hs2]
    refine runs_bind ?_ h
    refine runs_forN_fold 16 0 0 (g := fun i cnt => cnt + if T.getD i 0 = T'.getD i 0 then 1 else 0) ?_
    intro j hj x
    rw [Nat.zero_add]
    have hx := runs_load8_at (e := e) (s := s2) (p := u) (n := 16) (i := j) U.wr.readable hj
    rw [hu] at hx
    refine runs_bind hx (runs_bind hload2 ?_)
    have hb := runs_load8_at (e := e) (s := s2) (p := a.c + (a.clen - 16)) (n := 16) (i := j) (V.c.add (by omega)) hj
    rw [hT2, add_add] at hb
    exact runs_bind hb (runs_pure _ _ _)
  have hcount := count_eq T T' 16 (by omega) (by omega)
  rw [List.take_of_length_le (by omega), List.take_of_length_le (by omega)] at hcount
  have hoff : SameOff u v s2 s1 := hs2 ▸ sameOff_left hTl (sameOff_mem rfl)
  constructor
  · intro hacc V'
    have hacc : T' = T := by rw [tagEq, hmac'] at hacc; exact hacc
    refine ⟨_, common 0 _ (runs_if_true (hcount.2.2 hacc.symm)
      (runs_decryptTail henc V' B hload2 ((b2 _ _ U.k).trans hk) ((b2 _ _ U.npub).trans hN) hC2)), ?_, hoff.put _ _⟩
    rw [bytesAt_putBytes_disjoint _ _ _ _ _ (by simpa using U.m), hu]
  · intro hacc
    have hacc : ¬ T = T' := fun h => hacc (by rw [tagEq, hmac']; exact h.symm)
    exact ⟨_, common (-1) _ (runs_if_false (fun h => hacc (hcount.2.1 h)) (runs_pure _ _ _)), hu, hoff⟩

namespace Opt.Stp
open Spec
variable {D : StpPrims} {φ : BitVec 64 → BitVec 64} {q : Nat → State → State}

theorem runs_pvpHalfAt (O : StpOK D φ q) {e : Env} {s : St} {S : State} {p : Ptr} (hw : Readable e p 16) (hal : Aligned e 8 p 16)
    (h0 : s.s0 = φ S.x0) (h1 : s.s1 = φ S.x1) : Runs (pvpHalfAt D p) e s (rep φ (img q S (bytesAt s p 16))) s := by
  have l0 := runs_load64 (s := s) (p := p + 0) (hal.mono (by decide)) (hw.mono (by decide))
  have l1 := runs_load64 (s := s) (p := p + 8) (hal.add rfl (by decide)) (hw.add (by decide))
  refine runs_bind l0 (runs_bind l1 ?_)
  have h := runs_pvpHalf O e s (T := bytesAt s p 16) (by simp) h0 h1
  unfold pvpHalf at h
  rw [bytesAt_drop] at h
  have : le64 (bytesAt s p 16) = le64 (bytesAt s (p + 0) 8) := by
    rw [show (16 : Nat) = 8 + 8 from rfl, bytesAt_add]
    apply BitVec.eq_of_getLsbD_eq; intro i hi
    rw [getLsbD_le64 _ hi, getLsbD_le64 _ hi]
    have : i / 8 < 8 := by omega
    simp [List.getD, this, List.getElem?_append_left]
  rw [this] at h
  exact h

theorem runs_pvpAt (O : StpOK D φ q) {e : Env} {s : St} {S : State} {u v : Ptr} (hu : Readable e u 16) (hv : Readable e v 16)
    (hau : Aligned e 8 u 16) (hav : Aligned e 8 v 16) (h0 : s.s0 = φ S.x0) (h1 : s.s1 = φ S.x1) :
    ∃ n, Runs (pvpAt D u v) e s n s ∧ (n = 16 ↔ (img q S (bytesAt s u 16)).x0 = (img q S (bytesAt s v 16)).x0 ∧
      (img q S (bytesAt s u 16)).x1 = (img q S (bytesAt s v 16)).x1) := by
  obtain ⟨n, hn, hc⟩ := runs_pvpCount O e s (img q S (bytesAt s u 16)) (img q S (bytesAt s v 16))
  exact ⟨n, runs_bind (runs_pvpHalfAt O hu hau h0 h1) (runs_bind (runs_pvpHalfAt O hv hav h0 h1) hn), hc⟩

/-- Copying the received tag byte by byte. -/
theorem runs_copyTag {e : Env} {s : St} {mlen c v : Ptr} {l : Nat} (hm : Writable e mlen 8) (hl : l < 2 ^ 64)
    (hcell : bytesAt s mlen 8 = toLe64 (BitVec.ofNat 64 l)) (hc : Readable e (c + l) 16) (hv : Writable e v 16)
    (hvm : Disjoint v 16 mlen 8) (hvc : Disjoint v 16 (c + l) 16) :
    Runs (forN 16 0 (fun i (_ : Unit) => do
      let l ← loadLen mlen
      let b ← load8 (c + (l + i))
      store8 (v + i) b) ()) e s () (putBytes s v (bytesAt s (c + l) 16)) := by
  have := runs_forN (σ := Unit) (e := e) (f := fun i (_ : Unit) => do
      let l ← loadLen mlen
      let b ← load8 (c + (l + i))
      store8 (v + i) b) 16 0 (fun _ => ()) (fun j => putBytes s v ((bytesAt s (c + l) 16).take j)) ?_
  · rw [List.take_zero, putBytes_nil, List.take_of_length_le (by simp)] at this
    exact this
  · intro j hj
    rw [Nat.zero_add]
    have hlen : ((bytesAt s (c + l) 16).take j).length = j := by simp; omega
    have hb : ∀ p n, Disjoint v 16 p n → bytesAt (putBytes s v ((bytesAt s (c + l) 16).take j)) p n = bytesAt s p n := by
      intro p n h
      apply bytesAt_putBytes_disjoint
      rw [hlen]
      exact h.symm.mono (Nat.le_refl _) (by omega)
    refine runs_bind (runs_loadLen hm hl ((hb _ _ hvm).trans hcell) rfl) ?_
    have h8 := runs_load8_at (e := e) (s := putBytes s v ((bytesAt s (c + l) 16).take j)) (p := c + l) (n := 16) (i := j) hc hj
    rw [hb _ _ hvc, add_add] at h8
    refine runs_bind h8 ?_
    refine runs_eq2 (runs_store8 (hv.add (by omega))) rfl ?_
    have h9 := putBytes_append s v ((bytesAt s (c + l) 16).take j) [(bytesAt s (c + l) 16).getD j 0]
    rw [hlen] at h9
    rw [h9, List.take_add_one]
    simp [List.getD, hj]

theorem decryptAtOK (O : StpOK D φ q) : DecryptAtOK (PQ q) .byWords 8 (Stp.Accepts (PQ q)) (decryptAt D) := by
  have W : (PQ q).Wf := (isAscon (q := q)).wf
  intro e s a u v V B U U' huv hal hal'
  have hge := V.clen_ge
  have hlt := V.clen_lt
  generalize hs1 : putBytes s a.mlen (toLe64 (BitVec.ofNat 64 (a.clen - 16))) = s1
  have b1 : ∀ p n, Disjoint a.mlen 8 p n → bytesAt s1 p n = bytesAt s p n := fun p n h => hs1 ▸ bytesAt_len h
  have hcell : bytesAt s1 a.mlen 8 = toLe64 (BitVec.ofNat 64 (a.clen - 16)) := by
    rw [← hs1, bytesAt_putBytes_same' _ _ _ (by simp)]
  have hk := b1 _ _ V.mlen_k
  have hN := b1 _ _ V.mlen_npub
  have hA := b1 _ _ V.mlen_ad
  have hC := b1 _ _ (V.mlen_c.mono (Nat.le_refl _) (show a.clen - 16 ≤ a.clen by omega))
  have hT := b1 _ _ (disjoint_suffix V.mlen_c (show a.clen - 16 + 16 ≤ a.clen by omega))
  have hload1 : Runs (loadLen a.mlen) e s1 (a.clen - 16) s1 := runs_loadLen V.mlen (by omega) hcell rfl
  have hm := runs_isapMac O s1 B.k B.npub B.ad B.c V.k V.npub V.ad (V.c.mono (show a.clen - 16 ≤ a.clen by omega))
  rw [hk, hN, hA, hC] at hm
  rw [accepts_iff (by simp) (by simp) (by simp)]
  generalize hmac' : (PQ q).mac (bytesAt s a.k 16) (bytesAt s a.npub 16) (bytesAt s a.ad a.adlen) (bytesAt s a.c (a.clen - 16)) = T at *
  have hTl : T.length = 16 := by rw [← hmac']; exact Spec.Params.length_mac W _ _ (by simp) (by simp)
  generalize macSt q (PQ q) (bytesAt s a.npub 16) (bytesAt s a.ad a.adlen) (bytesAt s a.c (a.clen - 16)) = S at *
  generalize hT' : bytesAt s (a.c + (a.clen - 16)) 16 = T' at *
  have hTl' : T'.length = 16 := by rw [← hT']; simp
  generalize hs2 : putBytes (upd φ S s1) u T = s2
  have b2 : ∀ p n, Disjoint u 16 p n → bytesAt s2 p n = bytesAt s1 p n := fun p n h => by
    rw [← hs2, bytesAt_arr hTl h]; exact bytesAt_mem_congr rfl _ _
  have hcell2 := (b2 _ _ U.mlen).trans hcell
  have hT2 := (b2 _ _ (disjoint_suffix U.c (show a.clen - 16 + 16 ≤ a.clen by omega))).trans hT
  have hcopy := runs_copyTag (e := e) (s := s2) (c := a.c) (v := v) V.mlen (show a.clen - 16 < 2 ^ 64 by omega) hcell2 (V.c.add (by omega)) U'.wr U'.mlen
    (disjoint_suffix U'.c (show a.clen - 16 + 16 ≤ a.clen by omega))
  rw [hT2] at hcopy
  generalize hs3 : putBytes s2 v T' = s3 at hcopy
  have b3 : ∀ p n, Disjoint v 16 p n → bytesAt s3 p n = bytesAt s2 p n := fun p n h => by rw [← hs3, bytesAt_arr hTl' h]
  have hload3 : Runs (loadLen a.mlen) e s3 (a.clen - 16) s3 := runs_loadLen V.mlen (by omega) ((b3 _ _ U'.mlen).trans hcell2) rfl
  have hu : bytesAt s3 u 16 = T := by rw [b3 _ _ huv.symm, ← hs2, bytesAt_putBytes_same' _ _ _ hTl]
  have hv : bytesAt s3 v 16 = T' := by rw [← hs3, bytesAt_putBytes_same' _ _ _ hTl']
  obtain ⟨n, hpvp, hn⟩ := runs_pvpAt O (s := s3) (S := S) U.wr.readable U'.wr.readable hal hal'
    (by rw [← hs3, ← hs2]; rfl) (by rw [← hs3, ← hs2]; rfl)
  rw [hu, hv] at hn
  rw [← hn]
  have common : ∀ (r : Int) (sf : St),
      Runs (do
        let ok ← branch (decide (n = 16))
        if ok then
          let l ← loadLen a.mlen
          ifThen (l > 0) do
            let l ← loadLen a.mlen
            isapEnc D.toPrims a.k a.npub a.c l a.m
          pure 0
        else
          pure (-1)) e s3 r sf → Runs (decryptAt D u v a) e s r sf := by
    intro r sf h
    refine runs_bind (runs_storeLen V.mlen) ?_
    rw [len_wrap hge hlt, hs1]
    refine runs_bind hload1 (runs_bind hm (runs_bind (runs_storeTag (aligned_one ..) ⟨16, rfl⟩ hTl U.wr) ?_))
    rw [hs2]
    exact runs_bind hcopy (runs_bind hpvp h)
  have hoff : SameOff u v s3 s1 := hs3 ▸ sameOff_right hTl' (hs2 ▸ sameOff_left hTl (sameOff_mem rfl))
  constructor
  · intro hacc V'
    refine ⟨_, common 0 _ (runs_if_true hacc
      (runs_decryptTail (encOK O.rep) V' B hload3 ((b3 _ _ U'.k).trans ((b2 _ _ U.k).trans hk))
        ((b3 _ _ U'.npub).trans ((b2 _ _ U.npub).trans hN))
        ((b3 _ _ (U'.c.mono (Nat.le_refl _) (by omega))).trans ((b2 _ _ (U.c.mono (Nat.le_refl _) (by omega))).trans hC)))), ?_, hoff.put _ _⟩
    rw [bytesAt_putBytes_disjoint _ _ _ _ _ (by simpa using U.m), hu]
  · intro hacc
    exact ⟨_, common (-1) _ (runs_if_false hacc (runs_pure _ _ _)), hu, hoff⟩

end Opt.Stp

namespace Target
open Spec

/-- Decryption with local arrays, for every implementation. -/
theorem decryptAtOK (t : Target) : DecryptAtOK t.spec t.limits t.localAlign t.acc (fun u v => t.decryptAt u v) := by
  have opt : ∀ {D : Opt.Prims} {φ : BitVec 64 → BitVec 64} {q : Nat → Opt.State → Opt.State} (_ : Opt.RepOK D φ q),
      DecryptAtOK (Opt.PQ q) .byWords 1 (tagEq (Opt.PQ q)) (fun u _ => (Opt.impl D).decryptAt u) := fun {D _ _} O =>
    Model.decryptAtOK (I := Opt.impl D) Opt.isAscon.wf (Nat.le_add_right · 16) (Opt.macOK O) (Opt.encOK O) ⟨16, rfl⟩
  have arm : ∀ {D : K128.Arm.Prims} {P : Params} (_ : K128.Arm.PrimsOK D P),
      DecryptAtOK P ⟨2, 1, 2 ^ 32, id⟩ 1 (tagEq P) (fun u _ => (K128.Arm.impl D).decryptAt u) := fun {D _} O =>
    Model.decryptAtOK (I := K128.Arm.impl D) O.wf (Nat.le_add_right · 16) (K128.Arm.macOK O) (K128.Arm.encOK O) ⟨16, rfl⟩
  cases t with
  | ref p =>
    exact Model.decryptAtOK (I := Ref.impl p.cfg) p.cfgOK.wf (Nat.le_add_right · 16) (Ref.macOK p.cfgOK) (Ref.encOK p.cfgOK) ⟨16, rfl⟩
  | x p =>
    exact Model.decryptAtOK (I := Ref.impl p.cfg) p.cfgOK.wf (Nat.le_add_right · 16) (Ref.macOK p.cfgOK) (Ref.encOK p.cfgOK) ⟨16, rfl⟩
  | a128aOpt64 => exact opt Opt.Opt64.repOK
  | a128aOpt32 => exact opt Opt.Opt32.repOK
  | a128aOpt32Compact => exact opt Opt.Opt32.repOKCompact
  | a128aOpt32Tiny => exact opt Opt.Opt32.repOKTiny
  | a128aOpt32Stp => exact Opt.Stp.decryptAtOK Opt.Opt32.stpOK
  | a128aOpt8 => exact opt Opt.Opt8.repOK
  | a128aOpt8Tiny => exact opt Opt.Opt8.repOKTiny
  | a128aBi8 => exact opt Opt.Bi8.repOK
  | a128aBi32 => exact opt Opt.Bi32.repOK
  | a128aBi32Compact => exact opt Opt.Bi32.repOKCompact
  | a128aBi32Stp => exact Opt.Stp.decryptAtOK Opt.Bi32.stpOK
  | a128aBi32Armv6 => exact opt Opt.Armv6.repOK
  | a128aBi32Armv6m => exact opt Opt.Armv6m.repOK
  | a128aBi32Armv6mCompact => exact opt Opt.Armv6m.repOKCompact
  | a128aBi32Armv6mStp => exact Opt.Stp.decryptAtOK Opt.Armv6m.stpOK
  | a128aBi32Armv7m => exact opt Opt.Armv7m.repOK
  | a128aAvx512 d =>
    exact Model.decryptAtOK (I := A128.Avx.impl d) (A128.Avx.cfgOK d).isAscon.wf (fun _ => Nat.le_add_right ..)
      ((A128.Opt64.macOK (A128.Avx.cfgOK d)).shrink (Nat.min_le_right ..))
      ((A128.Opt64.encOK (A128.Avx.cfgOK d)).shrink (Nat.min_le_right ..)) ⟨2, rfl⟩
  | a128Opt64 d =>
    exact Model.decryptAtOK (I := A128.Opt64.impl _) A128.isAscon.wf (Nat.le_add_right · 16) (A128.Opt64.macOK (A128.Opt64.cfgOK d))
      (A128.Opt64.encOK (A128.Opt64.cfgOK d)) ⟨2, rfl⟩
  | a128Opt32 =>
    exact Model.decryptAtOK (I := A128.Opt32.impl _) A128.isAscon.wf (Nat.le_add_right · 16) (A128.Opt32.macOK A128.Opt32.permOK)
      (A128.Opt32.encOK A128.Opt32.permOK) ⟨2, rfl⟩
  | a128Opt32Armv67m =>
    exact Model.decryptAtOK (I := A128.Opt32.impl _) A128.isAscon.wf (Nat.le_add_right · 16) (A128.Opt32.macOK A128.Opt32.permOKArm)
      (A128.Opt32.encOK A128.Opt32.permOKArm) ⟨2, rfl⟩
  | k128aOpt64 =>
    exact Model.decryptAtOK (I := K128.impl _) K128.Opt64.primsK128a_ok.wf K128.Opt64.ext_le (K128.macOK K128.Opt64.primsK128a_ok)
      (K128.encOK K128.Opt64.primsK128a_ok) ⟨8, rfl⟩
  | k128Opt64 =>
    exact Model.decryptAtOK (I := K128.impl _) K128.Opt64.primsK128_ok.wf K128.Opt64.ext_le (K128.macOK K128.Opt64.primsK128_ok)
      (K128.encOK K128.Opt64.primsK128_ok) ⟨8, rfl⟩
  | k128aAvx512 j =>
    exact Model.decryptAtOK (I := K128.impl _) (K128.Avx.prims_ok j).wf (Nat.le_add_right · 16) (K128.macOK (K128.Avx.prims_ok j))
      (K128.encOK (K128.Avx.prims_ok j)) ⟨16, rfl⟩
  | k128aOpt32Armv6m => exact arm K128.Arm.primsK128aV6_ok
  | k128aOpt32Armv7m => exact arm K128.Arm.primsK128aV7_ok
  | k128Opt32Armv6m => exact arm K128.Arm.primsK128V6_ok
  | k128Opt32Armv7m => exact arm K128.Arm.primsK128V7_ok

end Target
end Model
