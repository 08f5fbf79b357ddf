import Verif.Proof.StateArrays
/-!
# What `isap_mac` of isapa128v20/opt_64 leaves in its array
-/

namespace Model
open C

/-- `isap_mac`, with its local array of `n` bytes at `v`, leaves `Z K N A C` there. -/
def MacLeaves (P : Spec.Params) (L : Limits) (n al : Nat) (v : Ptr) (Z : List Byte → List Byte → List Byte → List Byte → List Byte)
    (mac : (k npub ad : Ptr) → (adlen : Nat) → (c : Ptr) → (clen : Nat) → CM (List Byte)) : Prop :=
  ∀ (e : Env) (s : St) (k npub ad : Ptr) (adlen : Nat) (c : Ptr) (clen : Nat),
    Aligned e L.al k 16 → Aligned e L.al npub 16 → Aligned e L.al ad adlen → Aligned e L.al c clen →
    adlen < L.maxLen → clen < L.maxLen →
    Readable e k 16 → Readable e npub 16 → Readable e ad adlen → Readable e c clen →
    Aligned e al v n → Writable e v n → Disjoint v n k 16 →
    Runs (mac k npub ad adlen c clen) e s
      (P.mac (bytesAt s k 16) (bytesAt s npub 16) (bytesAt s ad adlen) (bytesAt s c clen))
      (putBytes s v (Z (bytesAt s k 16) (bytesAt s npub 16) (bytesAt s ad adlen) (bytesAt s c clen)))

section
variable {e : Env} {s : St} {P : Spec.Params} (W : P.Wf) {L : Limits} {I : Impl} {n al : Nat} {u v : Ptr}
  {E : List Byte → List Byte → List Byte} {Z : List Byte → List Byte → List Byte → List Byte → List Byte}
  (hE24 : ∀ K N, K.length = 16 → N.length = 16 → (E K N).length = 24) (hn : 24 ≤ n)
  (hZn : ∀ K N A C, K.length = 16 → N.length = 16 → (Z K N A C).length = n)
  (HE : EncIn P L n al u E I.enc) (HM : MacLeaves P L n al v Z I.mac)
include W hE24 hn hZn HE HM

/-- After encryption, wherever the array of `isap_enc` is. -/
theorem encrypt_leaves (htag : L.tal = I.tagAlign) (hd : I.tagAlign ∣ 16) {a : EncArgs} (V : ValidEnc e a) (B : L.Enc e a)
    (U : StateArray e a n u) (U' : StateArray e a n v) (hu : Aligned e al u n) (hv : Aligned e al v n) {r : Int} {s' : St}
    (h : Runs (I.aead.encrypt a) e s r s') :
    bytesAt s' v n = Z (bytesAt s a.k 16) (bytesAt s a.npub 16) (bytesAt s a.ad a.adlen)
      (P.enc (bytesAt s a.k 16) (bytesAt s a.npub 16) (bytesAt s a.m a.mlen)) := by
  generalize hs1 : putBytes s a.clen (toLe64 (BitVec.ofNat 64 (a.mlen + 16))) = s1
  have b1 : ∀ p n, Disjoint a.clen 8 p n → bytesAt s1 p n = bytesAt s p n := fun p n h => hs1 ▸ bytesAt_len h
  have hk := b1 _ _ V.clen_k
  have hN := b1 _ _ V.clen_npub
  have hA := b1 _ _ V.clen_ad
  have hM := b1 _ _ V.clen_m
  generalize hX : P.enc (bytesAt s a.k 16) (bytesAt s a.npub 16) (bytesAt s a.m a.mlen) = X
  have hXl : X.length = a.mlen := by rw [← hX]; simp
  have hEl := hE24 (bytesAt s a.k 16) (bytesAt s a.npub 16) (by simp) (by simp)
  have henc : ∃ s2, Runs (ifThen (a.mlen > 0) (I.enc a.k a.npub a.m a.mlen a.c)) e s1 () s2 ∧
      SameExcept n u v s2 (putBytes s1 a.c X) := by
    by_cases h0 : a.mlen > 0
    · have he := HE e s1 a.k a.npub a.m a.mlen a.c B.k B.npub B.m B.c B.mlen_lt V.k V.npub V.m (V.c.mono (by omega)) V.c_m hu U.wr U.k U.npub U.m
      rw [hk, hN, hM, hX] at he
      exact ⟨_, runs_ifThen_true h0 he, ((SameExcept.refl n u v s1).left (by omega)).put _ _⟩
    · have : X = [] := by apply List.length_eq_zero_iff.1; omega
      rw [this, putBytes_nil]
      exact ⟨_, runs_ifThen_false h0, SameExcept.refl n u v s1⟩
  obtain ⟨s2, henc, hoff⟩ := henc
  have b2 : ∀ p w, Disjoint u n p w → Disjoint v n p w → Disjoint a.c (a.mlen + 16) p w → bytesAt s2 p w = bytesAt s1 p w := by
    intro p w h1 h2 h3
    rw [hoff.bytes h1 h2, bytesAt_putBytes_disjoint _ _ _ _ _ (h3.symm.mono (Nat.le_refl _) (by omega))]
  have hm := HM e s2 a.k a.npub a.ad a.adlen a.c a.mlen B.k B.npub B.ad B.c B.adlen_lt B.mlen_lt V.k V.npub V.ad
    (V.c.readable.mono (show a.mlen ≤ a.mlen + 16 by omega)) hv U'.wr U'.k
  rw [b2 _ _ U.k U'.k V.c_k, b2 _ _ U.npub U'.npub V.c_npub, b2 _ _ U.ad U'.ad V.c_ad, hk, hN, hA,
    hoff.bytes (U.c.mono (Nat.le_refl _) (show a.mlen ≤ _ by omega)) (U'.c.mono (Nat.le_refl _) (by omega)),
    bytesAt_putBytes_same' _ _ _ hXl] at hm
  have hT := Spec.Params.length_mac W (K := bytesAt s a.k 16) (N := bytesAt s a.npub 16) (bytesAt s a.ad a.adlen) X
    (by simp) (by simp)
  have hst : ∀ t : St, Runs (do
      storeTag I.tagAlign (a.c + a.mlen) (P.mac (bytesAt s a.k 16) (bytesAt s a.npub 16) (bytesAt s a.ad a.adlen) X)
      pure (0 : Int)) e t 0 _ := fun t =>
    runs_bind (runs_storeTag (htag ▸ B.tag) hd hT (V.c.add (Nat.le_refl _))) (runs_pure _ _ _)
  obtain ⟨_, rfl⟩ := h.det (runs_bind (runs_storeLen V.clen) (hs1 ▸ runs_bind henc (runs_bind hm (hst _))))
  rw [bytesAt_putBytes_disjoint _ _ _ _ _ (by
      rw [hT]; exact disjoint_suffix U'.c (show a.mlen + 16 ≤ a.mlen + 16 by omega)),
    bytesAt_putBytes_same' _ _ _ (hZn _ _ _ _ (by simp) (by simp))]

/-- After decryption: if the tag is rejected, if there is no plaintext, or if the array of `isap_enc` is elsewhere. -/
theorem decrypt_leaves {a : DecArgs} (V : ValidDec e a) (B : L.Dec e a)
    (U : StateArrayDec e a n u) (U' : StateArrayDec e a n v) (hu : Aligned e al u n) (hv : Aligned e al v n) {r : Int} {s' : St}
    (h : Runs (I.aead.decrypt a) e s r s') (huv : r = -1 ∨ a.clen = 16 ∨ Disjoint u n v n) :
    bytesAt s' v n = Z (bytesAt s a.k 16) (bytesAt s a.npub 16) (bytesAt s a.ad a.adlen) (bytesAt s a.c (a.clen - 16)) := by
  have hge := V.clen_ge
  have hlt := V.clen_lt
  generalize hs1 : putBytes s a.mlen (toLe64 (BitVec.ofNat 64 (a.clen - 16))) = s1
  have b1 : ∀ p n, Disjoint a.mlen 8 p n → bytesAt s1 p n = bytesAt s p n := fun p n h => hs1 ▸ bytesAt_len h
  have hcell : bytesAt s1 a.mlen 8 = toLe64 (BitVec.ofNat 64 (a.clen - 16)) := by
    rw [← hs1, bytesAt_putBytes_same' _ _ _ (by simp)]
  have hk := b1 _ _ V.mlen_k
  have hN := b1 _ _ V.mlen_npub
  have hA := b1 _ _ V.mlen_ad
  have hC := b1 _ _ (V.mlen_c.mono (Nat.le_refl _) (show a.clen - 16 ≤ a.clen by omega))
  have hT := b1 _ _ (disjoint_suffix V.mlen_c (show a.clen - 16 + 16 ≤ a.clen by omega))
  have hload1 : Runs (loadLen a.mlen) e s1 (a.clen - 16) s1 := runs_loadLen V.mlen (by omega) hcell rfl
  have hm := HM e s1 a.k a.npub a.ad a.adlen a.c (a.clen - 16) B.k B.npub B.ad B.c B.adlen_lt B.clen_lt V.k V.npub V.ad
    (V.c.mono (show a.clen - 16 ≤ a.clen by omega)) hv U'.wr U'.k
  rw [hk, hN, hA, hC] at hm
  have hZ := hZn (bytesAt s a.k 16) (bytesAt s a.npub 16) (bytesAt s a.ad a.adlen) (bytesAt s a.c (a.clen - 16)) (by simp) (by simp)
  generalize Z (bytesAt s a.k 16) (bytesAt s a.npub 16) (bytesAt s a.ad a.adlen) (bytesAt s a.c (a.clen - 16)) = z at *
  generalize P.mac (bytesAt s a.k 16) (bytesAt s a.npub 16) (bytesAt s a.ad a.adlen) (bytesAt s a.c (a.clen - 16)) = T at *
  generalize hs2 : putBytes s1 v z = s2 at hm
  have hres : bytesAt s2 v n = z := by rw [← hs2, bytesAt_putBytes_same' _ _ _ hZ]
  have b2 : ∀ p w, Disjoint v n p w → bytesAt s2 p w = bytesAt s1 p w := fun p w h => by
    rw [← hs2, bytesAt_putBytes_disjoint _ _ _ _ _ (h.symm.mono (Nat.le_refl _) (by omega))]
  have hload2 : Runs (loadLen a.mlen) e s2 (a.clen - 16) s2 :=
    runs_loadLen V.mlen (by omega) ((b2 _ _ U'.mlen).trans hcell) rfl
  have hT2 := (b2 _ _ (disjoint_suffix U'.c (show a.clen - 16 + 16 ≤ a.clen by omega))).trans hT
  have hk2 := (b2 _ _ U'.k).trans hk
  have hN2 := (b2 _ _ U'.npub).trans hN
  generalize bytesAt s (a.c + (a.clen - 16)) 16 = T' at *
  obtain ⟨_, t1, i1, j1⟩ := runs_bind_inv h
  have d1 := (i1.det (runs_storeLen V.mlen)).2
  rw [len_wrap hge hlt, hs1] at d1
  subst t1
  obtain ⟨l, t2, i2, j2⟩ := runs_bind_inv j1
  obtain ⟨d2, d2'⟩ := i2.det hload1
  subst l t2
  obtain ⟨tag, t3, i3, j3⟩ := runs_bind_inv j2
  obtain ⟨d3, d3'⟩ := i3.det hm
  subst tag t3
  obtain ⟨cnt, t4, i4, j4⟩ := runs_bind_inv j3
  have hloop := runs_forN_fold (e := e) (s := s2) 16 0 0 (g := fun i cnt => cnt + if T.getD i 0 = T'.getD i 0 then 1 else 0)
    (f := fun i cnt => do
      let l ← loadLen a.mlen
      let b ← load8 (a.c + (l + i))
      pure (cnt + if T.getD i 0 = b then 1 else 0)) (by
    intro j hj x
    rw [Nat.zero_add]
    refine runs_bind hload2 ?_
    have hb := runs_load8_at (e := e) (s := s2) (p := a.c + (a.clen - 16)) (n := 16) (i := j) (V.c.add (by omega)) hj
    rw [hT2, add_add] at hb
    exact runs_bind hb (runs_pure _ _ _))
  obtain ⟨d4, d4'⟩ := i4.det hloop
  subst cnt t4
  obtain ⟨ok, t5, i5, j5⟩ := runs_bind_inv j4
  obtain ⟨d5, d5'⟩ := i5.det (runs_branch _ _ _)
  subst t5
  clear d5 i5
  split at j5
  · obtain ⟨l, t6, i6, j6⟩ := runs_bind_inv j5
    obtain ⟨d6, d6'⟩ := i6.det hload2
    subst l t6
    obtain ⟨_, t7, i7, j7⟩ := runs_bind_inv j6
    obtain ⟨d7, d7'⟩ := j7.det (runs_pure _ _ _)
    subst r t7
    by_cases h0 : a.clen - 16 > 0
    · have he := HE e s2 a.k a.npub a.c (a.clen - 16) a.m B.k B.npub B.c B.m B.clen_lt V.k V.npub (V.c.mono (by omega)) V.m V.m_c hu U.wr U.k U.npub
        (U.c.mono (Nat.le_refl _) (by omega))
      rw [(i7.det (runs_ifThen_true h0 (runs_bind hload2 he))).2]
      have huv : Disjoint u n v n := by
        rcases huv with h | h | h
        · exact absurd h (by decide)
        · omega
        · exact h
      have hEl := hE24 (bytesAt s2 a.k 16) (bytesAt s2 a.npub 16) (by simp) (by simp)
      rw [bytesAt_putBytes_disjoint _ _ _ _ _ (by simpa using U'.m),
        bytesAt_putBytes_disjoint _ _ _ _ _ (by exact huv.symm.mono (Nat.le_refl _) (by omega)), hres]
    · rw [(i7.det (runs_ifThen_false h0)).2]
      exact hres
  · rw [(j5.det (runs_pure _ _ _)).2]
    exact hres

end

namespace A128.Opt64
open Spec Spec.Ascon

variable {D : Cfg} {q : Nat → State → State} {P : Params} (O : CfgOK D q P)
include O

theorem macLeaves (v : Ptr) : MacLeaves P ⟨8, 8, D.dm.ulong, id⟩ 40 8 v
    (fun K N A C => P.authKey K N A C ++ (P.macState N A C).drop 16) (implIn D u v).mac :=
  fun _ _ _ _ _ _ _ _ hlk hln hla hlc hda hdc hk hnp had hc ho hw hdk =>
    runs_macIn_exact O hda hdc hlk hln hla hlc hk hnp had hc ho hw hdk

end A128.Opt64
end Model
