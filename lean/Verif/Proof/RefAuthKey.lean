import Verif.Proof.RefArraysApi
import Verif.Spec.Stp
/-!
# What the array of `isap_rk` holds after `isap_mac` of the Keccak reference
-/

namespace Model.Ref
open C Spec

variable {G : Cfg} {P : Params} {e : Env} {s : St}

/-- `isap_mac` up to the derivation of the key: `isapk128av20/ref/isap.c` lines 58-106. -/
def macPre (G : Cfg) (npub ad : Ptr) (adlen : Nat) (c : Ptr) (clen : Nat) : CM (List Byte) := do
  let state := List.replicate G.stateSz (0 : Byte)
  let state ← addBytes G state (.ext npub) 0 16
  let state ← addBytes G state (.loc (G.iv 1)) 16 8
  let state ← G.permute state G.sH
  let x ← absorbAd G state ad adlen
  let x ← refill G G.sH x.1 x.2
  let state ← addBytes G x.1 (.loc [0x80]) (G.rHsz - x.2) 1
  let state ← G.permute state G.sH
  let state ← addBytes G state (.loc [0x01]) (G.stateSz - 1) 1
  let x ← absorbC G state c clen
  let state ← addBytes G x.1 (.loc [0x80]) (G.rHsz - x.2) 1
  G.permute state G.sH

/-- The rest of it: `isapk128av20/ref/isap.c` lines 108-117. -/
def macPost (G : Cfg) (k : Ptr) (state : List Byte) : CM (List Byte) := do
  let y ← extractBytes G state 0 16
  let kaStar ← isapRk G k (G.iv 2) (.loc y) 16 16
  let state ← overwriteBytes G state (.loc kaStar) 0 16
  let state ← G.permute state G.sH
  extractBytes G state 0 16

theorem isapMac_eq (k npub ad : Ptr) (adlen : Nat) (c : Ptr) (clen : Nat) :
    isapMac G k npub ad adlen c clen = macPre G npub ad adlen c clen >>= macPost G k := by
  unfold isapMac macPre macPost
  simp only [bind_assoc']

theorem runs_macPre (O : CfgOK G P) {npub ad : Ptr} {adlen : Nat} {c : Ptr} {clen : Nat} (hnp : Readable e npub 16)
    (had : Readable e ad adlen) (hc : Readable e c clen) :
    Runs (macPre G npub ad adlen c clen) e s (P.macState (bytesAt s npub 16) (bytesAt s ad adlen) (bytesAt s c clen)) s := by
  have hn := O.wf.n_ge
  have hr := O.wf.r_lt
  have hN : (bytesAt s npub 16).length = 16 := by simp
  have hI := O.wf.len_pH (Params.length_initState O.wf 1 hN)
  refine runs_bind (runs_addBytes O _ (src := .ext npub) hnp (by omega) (by omega)) ?_
  refine runs_bind (runs_addLoc O _ _ rfl (by omega) (by omega)) ?_
  show Runs (G.permute (xorAt (xorAt _ _ (bytesAt s npub 16)) _ _) _ >>= _) _ _ _ _
  rw [initState_eq O hN]
  refine runs_bind (O.runs_pH (Params.length_initState O.wf 1 hN)) ?_
  refine runs_bind (runs_absorbAd O hI had) ?_
  refine runs_bind (runs_norm O (bytesAt s ad adlen) hI (j := adlen) (by simp)) ?_
  have hE := eager_len O.wf _ (bytesAt s ad adlen) hI
  have hEl := length_eager O.wf (bytesAt s ad adlen) hI adlen
  rw [length_bytesAt] at hE
  have hm := Nat.mod_lt adlen O.wf.r_pos
  have hm2 := Nat.mod_lt clen O.wf.r_pos
  refine runs_bind (runs_addLoc O _ _ rfl (by rw [O.rHsz, half_offset O.wf]; omega)
    (by rw [O.rHsz, half_offset O.wf]; omega)) ?_
  rw [O.rHsz]
  refine runs_bind (O.runs_pH (by simp [hEl])) ?_
  rw [hE]
  have hA := Params.length_absorb O.wf (bytesAt s ad adlen) hI
  refine runs_bind (runs_addLoc O _ _ rfl (by rw [O.n]; omega) (by rw [O.n]; omega)) ?_
  rw [O.n, ← Params.domSep_eq O.wf hA]
  have hD : (P.domSep (P.absorb (P.pH (P.initState (bytesAt s npub 16) (P.iv 1))) (blocks P.r (bytesAt s ad adlen)))).length = P.n := by
    rw [Params.domSep_eq O.wf hA, length_xorAt, hA]
  refine runs_bind (runs_absorbC O hD hc) ?_
  have hC := eager_len O.wf _ (bytesAt s c clen) hD
  have hCl := length_eager O.wf (bytesAt s c clen) hD clen
  rw [length_bytesAt] at hC
  refine runs_bind (runs_addLoc O _ _ rfl (by rw [half_offset O.wf]; omega) (by rw [half_offset O.wf]; omega)) ?_
  refine runs_eq (O.runs_pH (by simp [hCl])) ?_
  rw [hC]
  rfl

end Model.Ref

namespace Model.KeccakRef.In
open C

variable {e : Env} {I : St → Prop} {L : List Ptr} {fr : List (Ptr × List Byte)} {p q : Ptr} {S : List Byte} {G : Ref.Cfg}

/-- The same with the array at `p`: `isapk128av20/ref/isap.c` lines 58-106. -/
def macPre (G : Ref.Cfg) (p npub ad : Ptr) (adlen : Nat) (c : Ptr) (clen : Nat) : CM Unit := do
  initState p
  addBytes p (.ext npub) 0 16
  addBytes p (.loc (G.iv 1)) 16 8
  permute p G.sH
  let x ← absorbAd G p ad adlen
  let x ← refill G p G.sH x
  addBytes p (.loc [0x80]) (G.rHsz - x) 1
  permute p G.sH
  addBytes p (.loc [0x01]) (50 - 1) 1
  let x ← absorbC G p c clen
  addBytes p (.loc [0x80]) (G.rHsz - x) 1
  permute p G.sH

/-- `isapk128av20/ref/isap.c` lines 108-117. -/
def macPost (G : Ref.Cfg) (p q k : Ptr) : CM (List Byte) := do
  let y ← extractBytes p 0 16
  let kaStar ← isapRk G q k (G.iv 2) (.loc y) 16 16
  overwriteBytes p (.loc kaStar) 0 16
  permute p G.sH
  extractBytes p 0 16

theorem isapMac_eq (k npub ad : Ptr) (adlen : Nat) (c : Ptr) (clen : Nat) :
    isapMac G p q k npub ad adlen c clen = macPre G p npub ad adlen c clen >>= fun _ => macPost G p q k := by
  unfold isapMac macPre macPost
  simp only [bind_assoc']

theorem sim_macPre (K : IsK G) (A : Arr e L fr p) {npub ad c : Ptr} {adlen clen : Nat} (hN : Off L npub 16)
    (hA : Off L ad adlen) (hC : Off L c clen) :
    Rsim e (Rel I L fr) (Ref.macPre G npub ad adlen c clen) (macPre G p npub ad adlen c clen) (InArr I L fr p) := by
  unfold Ref.macPre macPre
  rw [K.sz]
  refine Rsim.right (fun s _ t => Rel I L ((p, List.replicate 50 0) :: fr) s t) (fun s t h => ?_) fun _ => ?_
  · obtain ⟨t', h1, h2⟩ := runs_initState A h
    exact ⟨(), t', h1, h2⟩
  refine (sim_addBytes K A (src := .ext npub) hN).bind fun S _ => (sim_addLoc K A).bind fun S _ => (sim_permute K A).bind fun S _ => ?_
  refine (sim_absorbAd K A hA).bind fun x y s t hR => ?_
  obtain ⟨rfl, hR⟩ := hR
  refine (Rsim.bind (R := Rel I L ((p, x.1) :: fr)) (sim_refill K A) fun x y => ?_) s t hR
  intro s t hR
  obtain ⟨rfl, hR⟩ := hR
  refine (Rsim.bind (R := Rel I L ((p, x.1) :: fr)) (sim_addLoc K A) fun S _ => (sim_permute K A).bind fun S _ =>
    (sim_addLoc K A).bind fun S _ => (sim_absorbC K A hC).bind fun x y => ?_) s t hR
  intro s t hR
  obtain ⟨rfl, hR⟩ := hR
  exact (Rsim.bind (R := Rel I L ((p, x.1) :: fr)) (sim_addLoc K A) fun S _ => sim_permute K A) s t hR

theorem Rel.swap {x y : Ptr × List Byte} {s t : St} (h : Rel I L (x :: y :: fr) s t) : Rel I L (y :: x :: fr) s t := by
  have hm : ∀ z, z ∈ y :: x :: fr → z ∈ x :: y :: fr := by
    intro z hz
    simp only [List.mem_cons] at *
    rcases hz with h | h | h
    · exact .inr (.inl h)
    · exact .inl h
    · exact .inr (.inr h)
  exact ⟨h.inv, h.same, fun z hz => h.held z (hm z hz), fun z hz => h.mem z (hm z hz)⟩

/-- After `isap_mac` the array of `isap_rk` holds the session key it has derived. -/
theorem mac_keeps {P : Spec.Params} (K : IsK G) (O : Ref.CfgOK G P) (A : Arr e L fr p) (B : ∀ S, Arr e L ((p, S) :: fr) q)
    {k npub ad c : Ptr} {adlen clen : Nat} (hk : Off L k 16) (hN : Off L npub 16) (hA : Off L ad adlen) (hC : Off L c clen)
    (rk : Readable e k 16) (rN : Readable e npub 16) (rA : Readable e ad adlen) (rC : Readable e c clen)
    {s s' t : St} {T : List Byte} (hR : Rel I L fr s t) (hr : Runs (Ref.isapMac G k npub ad adlen c clen) e s T s') :
    ∃ t', Runs (isapMac G p q k npub ad adlen c clen) e t T t' ∧ ∃ Z,
      Z.take 16 = P.rk (bytesAt s k 16) (P.iv 2) ((P.macState (bytesAt s npub 16) (bytesAt s ad adlen) (bytesAt s c clen)).take 16) 16 ∧
      Rel I L ((q, Z) :: fr) s' t' := by
  have hn : P.n = 50 := O.n.symm.trans K.sz
  rw [Ref.isapMac_eq] at hr
  rw [isapMac_eq]
  obtain ⟨S, s1, h1, h2⟩ := runs_bind_inv hr
  obtain ⟨_, t1, g1, hR1⟩ := sim_macPre K A hN hA hC s t hR S s1 h1
  obtain ⟨rfl, hs⟩ := h1.det (Ref.runs_macPre O rN rA rC)
  subst s1
  generalize hS : P.macState (bytesAt s npub 16) (bytesAt s ad adlen) (bytesAt s c clen) = S at *
  have hR1 : Rel I L ((p, S) :: fr) s t1 := hR1
  have hl := hR1.len
  obtain ⟨y, s2, h3, h4⟩ := runs_bind_inv h2
  obtain ⟨y', t2, g2, ⟨rfl, hy⟩, hR2⟩ := sim_extract K A s t1 hR1 y s2 h3
  obtain ⟨hy', hs⟩ := h3.det (Ref.runs_extract O _ (by omega) (by omega))
  subst s2
  obtain ⟨ka, s3, h5, h6⟩ := runs_bind_inv h4
  obtain ⟨ka', t3, g3, ⟨rfl, hkl⟩, Z, hZ, hR3⟩ := sim_isapRk_keeps K (B S) (inp := .loc y) hk trivial (by decide) s t2 hR2 ka s3 h5
  obtain ⟨hka, hs⟩ := h5.det (Ref.runs_isapRk O 2 rk (src := .loc y) (Nat.le_of_eq hy.symm) (by omega))
  subst s3
  have A' : Arr e L ((q, Z) :: fr) p := ⟨A.mem, A.wr, A.al, fun x hx => by
    rcases List.mem_cons.1 hx with rfl | hx
    · exact ((B S).off _ (List.mem_cons_self ..)).symm
    · exact A.off x hx⟩
  obtain ⟨X, s4, h7, h8⟩ := runs_bind_inv h6
  obtain ⟨_, t4, g4, hR4⟩ := sim_overwrite K A' hl (src := .loc ka) trivial s t3 ⟨S, hR3.swap, fun _ _ => rfl⟩ X s4 h7
  obtain ⟨X', s5, h9, h10⟩ := runs_bind_inv h8
  obtain ⟨_, t5, g5, hR5⟩ := sim_permute K A' s4 t4 hR4 X' s5 h9
  obtain ⟨_, t6, g6, ⟨rfl, _⟩, hR6⟩ := sim_extract K A' s5 t5 hR5 T s' h10
  refine ⟨t6, runs_bind g1 (runs_bind g2 (runs_bind g3 (runs_bind g4 (runs_bind g5 g6)))), Z, ?_, hR6.close⟩
  rw [hZ, hka, hy']
  simp [Src.bytes, List.take_take]

/-- The array at `q` begins with the session key of ISAP_MAC. -/
def Auth (P : Spec.Params) (K N A C : List Byte) (q : Ptr) (t : St) : Prop :=
  bytesAt t q 16 = P.rk K (P.iv 2) ((P.macState N A C).take 16) 16

theorem Rel.auth {P : Spec.Params} {KK NN AA CC Z : List Byte} {s t : St} (h : Rel I L ((q, Z) :: fr) s t)
    (hZ : Z.take 16 = P.rk KK (P.iv 2) ((P.macState NN AA CC).take 16) 16) : Auth P KK NN AA CC q t := by
  have h1 : bytesAt t q 50 = Z := h.held _ (List.mem_cons_self ..)
  rw [Auth, ← hZ, ← h1, bytesAt_take _ _ _ _ (by decide)]

theorem auth_encrypt {P : Spec.Params} {F : Frame} (K : IsK G) (C : Ref.CfgOK G P) (O : FrameOK e F) {a : EncArgs} (V : ValidEnc e a)
    (hk : Off F.arrays a.k 16) (hN : Off F.arrays a.npub 16)
    (hA : Off F.arrays a.ad a.adlen) (hM : Off F.arrays a.m a.mlen) (hC : Off F.arrays a.c (a.mlen + 16)) (hL : Off F.arrays a.clen 8)
    {s s' : St} {r : Int} (hr : Runs ((Ref.impl G).aead.encrypt a) e s r s') :
    ∃ t', Runs ((impl G F).aead.encrypt a) e s r t' ∧
      Auth P (bytesAt s a.k 16) (bytesAt s a.npub 16) (bytesAt s a.ad a.adlen)
        (P.enc (bytesAt s a.k 16) (bytesAt s a.npub 16) (bytesAt s a.m a.mlen)) F.macRk t' := by
  have B := Limits.enc_byBytes V
  obtain ⟨_, s1, h1, h2⟩ := runs_bind_inv hr
  obtain ⟨_, t1, g1, _, R1⟩ := sim_store (I := fun _ => True) (L := F.arrays) (fr := []) (by simpa using hL) (fun _ _ => trivial) s s
    ⟨trivial, fun _ _ _ => rfl, (fun _ hx => nomatch hx), (fun _ hx => nomatch hx)⟩ _ s1 h1
  obtain ⟨_, hs1⟩ := h1.det (runs_storeLen V.clen)
  have b1 : ∀ p n, Disjoint a.clen 8 p n → bytesAt s1 p n = bytesAt s p n := by
    intro p n h
    rw [hs1, bytesAt_putBytes_disjoint _ _ _ _ _ (by simpa using h.symm)]
  have ek := b1 _ _ V.clen_k
  have eN := b1 _ _ V.clen_npub
  have eA := b1 _ _ V.clen_ad
  have eM := b1 _ _ V.clen_m
  obtain ⟨_, s2, h3, h4⟩ := runs_bind_inv h2
  generalize hX : P.enc (bytesAt s a.k 16) (bytesAt s a.npub 16) (bytesAt s a.m a.mlen) = X
  have hXl : X.length = a.mlen := by rw [← hX]; simp
  have hs2 : s2 = putBytes s1 a.c X := by
    by_cases h0 : a.mlen > 0
    · have he := Ref.encOK C e s1 a.k a.npub a.m a.mlen a.c B.k B.npub B.m B.c B.mlen_lt V.k V.npub V.m (V.c.mono (by omega)) V.c_m
      rw [ek, eN, eM, hX] at he
      exact (h3.det (runs_ifThen_true h0 he)).2
    · have : X = [] := by apply List.length_eq_zero_iff.1; omega
      rw [this, putBytes_nil]
      exact (h3.det (runs_ifThen_false h0)).2
  obtain ⟨u, t2, g2, R2⟩ : ∃ u t2, Runs (ifThen (a.mlen > 0) ((impl G F).enc a.k a.npub a.m a.mlen a.c)) e t1 u t2 ∧
      Rel (fun _ => True) F.arrays [] s2 t2 := by
    refine Rsim.branch (R := Rel (Inputs a.k a.npub (bytesAt s1 a.k 16) (bytesAt s1 a.npub 16)) F.arrays [])
      (Q' := fun _ s _ t => Rel (fun _ => True) F.arrays [] s t) ?_ s1 t1 ⟨⟨rfl, rfl⟩, R1.same, R1.held, R1.mem⟩ _ s2 h3
    split
    · intro s t hR u s' hr
      obtain ⟨b, t', h1, Z, hZ, h2⟩ := sim_isapEnc K C (O.arr (by simp [Frame.arrays])) (O.arr2 (by simp [Frame.arrays]) O.enc.symm) hk hN hM (hC.mono (by omega))
        V.k V.npub s t hR u s' hr
      exact ⟨b, t', h1, h2.close⟩
    · exact Rsim.pure fun _ _ hR => ⟨trivial, hR.same, hR.held, hR.mem⟩
  obtain ⟨T, s3, h5, h6⟩ := runs_bind_inv h4
  obtain ⟨t3, g3, Z, hZ, R3⟩ := mac_keeps K C (O.arr (by simp [Frame.arrays])) (O.arr2 (by simp [Frame.arrays]) O.mac) hk hN hA
    (hC.mono (by omega)) V.k V.npub V.ad (V.c.readable.mono (by omega)) R2 h5
  have b2 : ∀ p n, Disjoint a.c (a.mlen + 16) p n → bytesAt s2 p n = bytesAt s1 p n := by
    intro p n h
    rw [hs2]
    exact bytesAt_putBytes_disjoint _ _ _ _ _ (h.symm.mono (Nat.le_refl _) (by omega))
  have eC : bytesAt s2 a.c a.mlen = X := by rw [hs2, ← hXl, bytesAt_putBytes_same]
  rw [b2 _ _ V.c_k, b2 _ _ V.c_npub, b2 _ _ V.c_ad, ek, eN, eA, eC] at hZ
  obtain ⟨_, s4, h7, h8⟩ := runs_bind_inv h6
  obtain ⟨_, t4, g4, _, R4⟩ := sim_storeTag (hC.part (by omega)) s3 t3 R3 _ s4 h7
  obtain ⟨rfl, rfl⟩ := h8.det (runs_pure _ _ _)
  exact ⟨t4, runs_bind g1 (runs_bind g2 (runs_bind g3 (runs_bind g4 (runs_pure _ _ _)))), R4.auth hZ⟩

theorem auth_reject {P : Spec.Params} {F : Frame} (K : IsK G) (C : Ref.CfgOK G P) (O : FrameOK e F) {a : DecArgs} (V : ValidDecIn e a)
    (hk : Off F.arrays a.k 16) (hN : Off F.arrays a.npub 16)
    (hA : Off F.arrays a.ad a.adlen) (hC : Off F.arrays a.c a.clen) (hL : Off F.arrays a.mlen 8)
    {s s' : St} (hr : Runs ((Ref.impl G).aead.decrypt a) e s (-1) s') :
    ∃ t', Runs ((impl G F).aead.decrypt a) e s (-1) t' ∧
      Auth P (bytesAt s a.k 16) (bytesAt s a.npub 16) (bytesAt s a.ad a.adlen) (bytesAt s a.c (a.clen - 16)) F.macRk t' := by
  have hge := V.clen_ge
  have hlt := V.clen_lt
  obtain ⟨_, s1, h1, h2⟩ := runs_bind_inv hr
  obtain ⟨_, t1, g1, _, R1⟩ := sim_store (I := fun _ => True) (L := F.arrays) (fr := []) (by simpa using hL) (fun _ _ => trivial) s s
    ⟨trivial, fun _ _ _ => rfl, (fun _ hx => nomatch hx), (fun _ hx => nomatch hx)⟩ _ s1 h1
  obtain ⟨_, hs1⟩ := h1.det (runs_storeLen V.mlen)
  have b1 : ∀ p n, Disjoint a.mlen 8 p n → bytesAt s1 p n = bytesAt s p n := by
    intro p n h
    rw [hs1, bytesAt_putBytes_disjoint _ _ _ _ _ (by simpa using h.symm)]
  have ek := b1 _ _ V.mlen_k
  have eN := b1 _ _ V.mlen_npub
  have eA := b1 _ _ V.mlen_ad
  have eC := b1 _ _ (V.mlen_c.mono (Nat.le_refl _) (Nat.sub_le _ 16))
  have R1 : Rel (Cell a (bytesAt s1 a.k 16) (bytesAt s1 a.npub 16)) F.arrays [] s1 t1 := by
    refine ⟨⟨?_, rfl, rfl⟩, R1.same, R1.held, R1.mem⟩
    rw [hs1, bytesAt_putBytes_same' _ _ _ (by simp), len_wrap hge hlt]
  obtain ⟨l, s2, h3, h4⟩ := runs_bind_inv h2
  obtain ⟨l', t2, g2, ⟨rfl, rfl⟩, R2⟩ := sim_loadLen hlt hL s1 t1 R1 l s2 h3
  obtain ⟨_, hs2⟩ := h3.det (runs_loadLen V.mlen (by omega) (R1.inv.1) rfl)
  subst s2
  obtain ⟨T, s3, h5, h6⟩ := runs_bind_inv h4
  obtain ⟨t3, g3, Z, hZ, R3⟩ := mac_keeps K C (O.arr (by simp [Frame.arrays])) (O.arr2 (by simp [Frame.arrays]) O.mac) hk hN hA
    (hC.mono (by omega)) V.k V.npub V.ad (V.c.mono (by omega)) R2 h5
  rw [ek, eN, eA, eC] at hZ
  obtain ⟨cnt, s4, h7, h8⟩ := runs_bind_inv h6
  have cmp : Rsim e (Rel (Cell a (bytesAt s1 a.k 16) (bytesAt s1 a.npub 16)) F.arrays [(F.macRk, Z)])
      (forN 16 0 (fun i (cnt : Nat) => do
        let l ← loadLen a.mlen
        let b ← load8 (a.c + (l + i))
        pure (cnt + if T.getD i 0 = b then 1 else 0)) 0)
      (forN 16 0 (fun i (cnt : Nat) => do
        let l ← loadLen a.mlen
        let b ← load8 (a.c + (l + i))
        pure (cnt + if T.getD i 0 = b then 1 else 0)) 0)
      (Eq2 (Rel (Cell a (bytesAt s1 a.k 16) (bytesAt s1 a.npub 16)) F.arrays [(F.macRk, Z)])) := by
    intro s t hR
    refine Rsim.forN 16 0 (fun _ => Eq2 (Rel (Cell a (bytesAt s1 a.k 16) (bytesAt s1 a.npub 16)) F.arrays [(F.macRk, Z)]))
      (fun j hj x y => ?_) 0 0 s t ⟨rfl, hR⟩
    intro s t hR
    obtain ⟨rfl, hR⟩ := hR
    refine (Rsim.bind (R := Rel (Cell a (bytesAt s1 a.k 16) (bytesAt s1 a.npub 16)) F.arrays [(F.macRk, Z)]) (sim_loadLen hlt hL)
      fun l l' => ?_) s t hR
    intro s t hR
    obtain ⟨⟨rfl, rfl⟩, hR⟩ := hR
    exact (Rsim.bindEq (R := Rel (Cell a (bytesAt s1 a.k 16) (bytesAt s1 a.npub 16)) F.arrays [(F.macRk, Z)])
      (sim_load8 (hC.part (by omega))) fun b => Rsim.pure fun _ _ h => ⟨rfl, h⟩) s t hR
  obtain ⟨cnt', t4, g4, rfl, R4⟩ := cmp s3 t3 R3 cnt s4 h7
  obtain ⟨ok, s5, h9, h10⟩ := runs_bind_inv h8
  obtain ⟨rfl, rfl⟩ := h9.det (runs_branch _ _ _)
  by_cases hc : cnt = 16
  · rw [if_pos (by simpa using hc)] at h10
    obtain ⟨_, _, _, h10⟩ := runs_bind_inv h10
    obtain ⟨_, _, _, h10⟩ := runs_bind_inv h10
    exact absurd (h10.det (runs_pure _ _ _)).1 (by decide)
  · refine ⟨t4, runs_bind g1 (runs_bind g2 (runs_bind g3 (runs_bind g4 (runs_bind (runs_branch _ _ _) ?_)))), R4.auth hZ⟩
    rw [if_neg (by simpa using hc)]
    exact runs_pure _ _ _

end Model.KeccakRef.In
