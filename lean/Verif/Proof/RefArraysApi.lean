import Verif.Proof.RefArrays
import Verif.Proof.Placement
/-!
# The functions of the API of the Keccak reference, with its arrays in memory
-/

namespace C

theorem forN_congr {σ : Type} {f g : Nat → σ → CM σ} (n : Nat) : ∀ (i : Nat) (x : σ), (∀ j, i ≤ j → j < i + n → f j = g j) →
    forN n i f x = forN n i g x := by
  induction n with
  | zero => intros; rfl
  | succ n ih =>
    intro i x h
    simp only [forN]
    rw [h i (Nat.le_refl _) (by omega)]
    simp only [fun x => ih (i + 1) x fun j h1 h2 => h j (by omega) (by omega)]

end C

namespace Model.KeccakRef.In
open C

variable {e : Env} {I : St → Prop} {L : List Ptr} {fr : List (Ptr × List Byte)} {p q : Ptr} {S : List Byte}

theorem Off.mono {a : Ptr} {n m : Nat} (h : Off L a n) (hm : m ≤ n) : Off L a m := fun u hu => (h u hu).mono (Nat.le_refl _) hm

theorem runs_fill8 {s t : St} (A : Arr e L fr p) (h : Rel I L ((p, S) :: fr) s t) (X : List Byte) {n : Nat} (hX : X.length = n)
    (hn : n ≤ 50) : ∃ t', Runs (forN n 0 (fun i (_ : Unit) => store8 (p + i) (X.getD i 0)) ()) e t () t' ∧
      Rel I L ((p, over S 0 X) :: fr) s t' := by
  have := runs_fill A h X 1 n 1 (aligned_one ..) (Nat.dvd_refl _) (by decide) (by omega) (by omega)
  rw [forN_congr (g := fun i (_ : Unit) => store8 (p + i) (X.getD i 0))] at this
  · exact this
  · intro j _ hj
    funext _
    have hj : j < X.length := by omega
    rw [Nat.one_mul, List.drop_eq_getElem_cons hj, List.take_succ_cons, List.take_zero]
    simp [store8, List.getD, hj]

variable {G : Ref.Cfg} (K : IsK G) (A : Arr e L fr p) (B : ∀ S, Arr e L ((p, S) :: fr) q)
include K A

theorem sim_isapMac {k npub ad c : Ptr} {adlen clen : Nat} (B : ∀ S, Arr e L ((p, S) :: fr) q) (hk : Off L k 16) (hN : Off L npub 16)
    (hA : Off L ad adlen) (hC : Off L c clen) :
    Rsim e (Rel I L fr) (Ref.isapMac G k npub ad adlen c clen) (isapMac G p q k npub ad adlen c clen)
      (fun a s b t => (a = b ∧ a.length = 16) ∧ Rel I L fr s t) := by
  unfold Ref.isapMac isapMac
  rw [K.sz]
  refine Rsim.right (fun s _ t => Rel I L ((p, List.replicate 50 0) :: fr) s t) (fun s t h => ?_) fun _ => ?_
  · obtain ⟨t', h1, h2⟩ := runs_initState A h
    exact ⟨(), t', h1, h2⟩
  refine (sim_addBytes K A (src := .ext npub) hN).bind fun S _ => (sim_addLoc K A).bind fun S _ => (sim_permute K A).bind fun S _ => ?_
  refine (sim_absorbAd K A hA).bind fun x y s t hR => ?_
  obtain ⟨rfl, hR⟩ := hR
  refine (Rsim.bind (R := Rel I L ((p, x.1) :: fr)) (sim_refill K A) fun x y => ?_) s t hR
  intro s t hR
  obtain ⟨rfl, hR⟩ := hR
  refine (Rsim.bind (R := Rel I L ((p, x.1) :: fr)) (sim_addLoc K A) fun S _ => (sim_permute K A).bind fun S _ =>
    (sim_addLoc K A).bind fun S _ => (sim_absorbC K A hC).bind fun x y => ?_) s t hR
  intro s t hR
  obtain ⟨rfl, hR⟩ := hR
  refine (Rsim.bind (R := Rel I L ((p, x.1) :: fr)) (sim_addLoc K A) fun S _ => (sim_permute K A).bind fun S _ =>
    (sim_extract K A).bind fun y y' => ?_) s t hR
  intro s t hR
  obtain ⟨⟨rfl, hy⟩, hR⟩ := hR
  refine (Rsim.bind (R := Rel I L ((p, S) :: fr)) (sim_isapRk K (B S) (inp := .loc y) hk trivial (by decide)) fun ka ka' => ?_) s t hR
  intro s t hR
  obtain ⟨⟨rfl, _⟩, hR⟩ := hR
  refine (Rsim.bind (sim_overwrite K A hR.len (src := .loc ka) trivial) fun S _ => (sim_permute K A).bind fun S _ => ?_) s t
    ⟨S, hR, fun _ _ => rfl⟩
  intro s t hR a s' hr
  obtain ⟨b, t', h1, h2, h3⟩ := sim_extract K A s t hR a s' hr
  exact ⟨b, t', h1, h2, h3.close⟩

/-- `isap_enc` after the call of `isap_rk`, which gave it `key`. -/
theorem sim_encRest {npub m c : Ptr} {mlen : Nat} {key : List Byte} (hkl : key.length = 50 - 16) (hN : Off L npub 16) (hM : Off L m mlen)
    (hC : Off L c mlen) :
    Rsim e (Rel (fun _ => True) L fr)
      (do
        let state ← Ref.overwriteBytes G (key ++ List.replicate 16 (0 : Byte)) (.ext npub) (50 - 16) 16
        let _ ← forN mlen 0 (fun i x => do
          let x ← Ref.refill G G.sE x.1 x.2
          let ks ← Ref.extractBytes G x.1 (i % G.rHsz) 1
          let d ← load8 (m + i)
          store8 (c + i) (d ^^^ ks.getD 0 0)
          pure (x.1, x.2 - 1)) (state, 0)
        pure ())
      (do
        forN (50 - 16) 0 (fun i (_ : Unit) => store8 (p + i) (key.getD i 0)) ()
        overwriteBytes p (.ext npub) (50 - 16) 16
        let _ ← forN mlen 0 (fun i x => do
          let x ← refill G p G.sE x
          let ks ← extractBytes p (i % G.rHsz) 1
          let d ← load8 (m + i)
          store8 (c + i) (d ^^^ ks.getD 0 0)
          pure (x - 1)) 0
        pure ())
      (Eq2 (Rel (fun _ => True) L fr)) := by
  refine Rsim.right (R := Rel (fun _ => True) L fr) (fun s _ t => ∃ T, Rel (fun _ => True) L ((p, T) :: fr) s t ∧
      ∀ i, ¬ (50 - 16 ≤ i ∧ i < 50 - 16 + 16) → (key ++ List.replicate 16 (0 : Byte))[i]? = T[i]?) (fun s t h => ?_) fun _ => ?_
  · obtain ⟨t', h1, h2⟩ := runs_fill8 A (h.open A) key hkl (by decide)
    refine ⟨(), t', h1, _, h2, fun i hi => ?_⟩
    rw [getElem?_over (by simp [hkl])]
    by_cases h3 : i < 34
    · rw [if_pos (by omega), List.getElem?_append_left (by omega), Nat.sub_zero]
    · rw [if_neg (by omega), List.getElem?_eq_none (by simp [hkl]; omega), List.getElem?_eq_none (by simp; omega)]
  refine (sim_overwrite K A (by simp [hkl]) (src := .ext npub) hN).bind fun S _ => ?_
  refine Rsim.bind (Q := InArr2 (fun _ => True) L fr p) (fun s t hR => ?_) fun x y => Rsim.pure fun s t h => ⟨rfl, h.2.close⟩
  refine Rsim.forN mlen 0 (fun _ => InArr2 (fun _ => True) L fr p) (fun j hj x y => ?_) (S, 0) 0 s t ⟨rfl, hR⟩
  rw [Nat.zero_add]
  intro s t hR
  obtain ⟨rfl, hR⟩ := hR
  refine (Rsim.bind (R := Rel (fun _ => True) L ((p, x.1) :: fr)) (sim_refill K A) fun x y => ?_) s t hR
  intro s t hR
  obtain ⟨rfl, hR⟩ := hR
  refine (Rsim.bind (R := Rel (fun _ => True) L ((p, x.1) :: fr)) (sim_extract K A) fun ks ks' => ?_) s t hR
  intro s t hR
  obtain ⟨⟨rfl, _⟩, hR⟩ := hR
  refine (Rsim.bindEq (R := Rel (fun _ => True) L ((p, x.1) :: fr)) (sim_load8 (hM.part (by omega))) fun d => ?_) s t hR
  exact (sim_store (hC.part (by simp; omega)) fun _ _ => trivial).bindEq fun _ => Rsim.pure fun _ _ h => ⟨rfl, h⟩

omit A

/-- The key and the nonce have these values. -/
def Inputs (k npub : Ptr) (K N : List Byte) (s : St) : Prop := bytesAt s k 16 = K ∧ bytesAt s npub 16 = N

/-- The array of `isap_rk` keeps the derived key. -/
theorem sim_isapEnc {P : Spec.Params} (O : Ref.CfgOK G P) {k npub m c : Ptr} {mlen : Nat} {KK NN : List Byte} (Q : Arr e L fr q)
    (A : ∀ Z, Arr e L ((q, Z) :: fr) p) (hk : Off L k 16) (hN : Off L npub 16) (hM : Off L m mlen) (hC : Off L c mlen)
    (hkr : Readable e k 16) (hNr : Readable e npub 16) :
    Rsim e (Rel (Inputs k npub KK NN) L fr) (Ref.isapEnc G k npub m mlen c) (isapEnc G p q k npub m mlen c)
      (fun _ s _ t => ∃ Z, Z.take 34 = P.rk KK (P.iv 3) NN 34 ∧ Rel (fun _ => True) L ((q, Z) :: fr) s t) := by
  unfold Ref.isapEnc isapEnc
  rw [K.sz]
  intro s t hR u s' hr
  have hI := hR.inv
  have hn : P.n = 50 := O.n.symm.trans K.sz
  obtain ⟨key, s1, h1, h2⟩ := runs_bind_inv hr
  obtain ⟨b, t1, g1, ⟨rfl, hkl⟩, Z, hZ, hR1⟩ := sim_isapRk_keeps K Q (inp := .ext npub) hk hN (by decide) s t hR _ s1 h1
  obtain ⟨rfl, rfl⟩ := h1.det (Ref.runs_isapRk O 3 hkr (src := .ext npub) hNr (by omega))
  obtain ⟨b, t2, g2, _, hR2⟩ := sim_encRest K (A Z) hkl hN hM hC _ t1 ⟨trivial, hR1.same, hR1.held, hR1.mem⟩ u s' h2
  refine ⟨b, t2, runs_bind g1 g2, Z, ?_, hR2⟩
  rw [← hI.1, ← hI.2]
  exact hZ

omit K


/-- The arrays of a frame may be where they are. -/
structure FrameOK (e : Env) (F : Frame) : Prop where
  wr : ∀ u ∈ F.arrays, Writable e u 50
  al : ∀ u ∈ F.arrays, Aligned e 2 u 50
  enc : Disjoint F.enc 50 F.encRk 50
  mac : Disjoint F.mac 50 F.macRk 50

theorem FrameOK.arr {F : Frame} (h : FrameOK e F) {u : Ptr} (hu : u ∈ F.arrays) : Arr e F.arrays [] u :=
  ⟨hu, h.wr u hu, h.al u hu, fun _ hx => nomatch hx⟩

theorem FrameOK.arr2 {F : Frame} (h : FrameOK e F) {u v : Ptr} (hu : v ∈ F.arrays) (hd : Disjoint u 50 v 50) (S : List Byte) :
    Arr e F.arrays [(u, S)] v :=
  ⟨hu, h.wr v hu, h.al v hu, fun x hx => by rw [List.mem_singleton.1 hx]; exact hd⟩

theorem sim_storeTag {a : Ptr} {T : List Byte} (h : Off L a 16) :
    Rsim e (Rel (fun _ => True) L fr) (storeTag 1 a T) (storeTag 1 a T) (Eq2 (Rel (fun _ => True) L fr)) := by
  have e1 : storeTag 1 a T = forN 16 0 (fun i (_ : Unit) => store 1 (a + 1 * i) ((T.drop (1 * i)).take 1)) () := rfl
  rw [e1]
  intro s t hR
  refine Rsim.forN 16 0 (fun _ => Eq2 (Rel (fun _ => True) L fr)) (fun j hj x y => ?_) () () s t ⟨rfl, hR⟩
  intro s t hR
  rw [Nat.zero_add]
  exact sim_store ((h.part (i := 1 * j) (m := 1) (by omega)).mono (by simp; omega)) (fun _ _ => trivial) s t hR.2

variable {P : Spec.Params}

/-- The array of `isap_rk` has kept the derived key. -/
def Kept (P : Spec.Params) (KK NN : List Byte) (q : Ptr) (t : St) : Prop := bytesAt t q 34 = P.rk KK (P.iv 3) NN 34

theorem Rel.kept {KK NN Z : List Byte} {s t : St} (h : Rel I L ((q, Z) :: fr) s t) (hZ : Z.take 34 = P.rk KK (P.iv 3) NN 34) :
    Kept P KK NN q t := by
  have h1 : bytesAt t q 50 = Z := h.held _ (List.mem_cons_self ..)
  rw [Kept, ← hZ, ← h1, bytesAt_take _ _ _ _ (by decide)]

theorem sim_encrypt {F : Frame} (K : IsK G) (C : Ref.CfgOK G P) (O : FrameOK e F) {a : EncArgs} {KK NN : List Byte} (V : ValidEnc e a)
    (hk : Off F.arrays a.k 16) (hN : Off F.arrays a.npub 16)
    (hA : Off F.arrays a.ad a.adlen) (hM : Off F.arrays a.m a.mlen) (hC : Off F.arrays a.c (a.mlen + 16)) (hL : Off F.arrays a.clen 8) :
    Rsim e (Rel (Inputs a.k a.npub KK NN) F.arrays []) ((Ref.impl G).aead.encrypt a) ((impl G F).aead.encrypt a)
      (fun r s r' t => r = r' ∧ Rel (fun _ => True) F.arrays [] s t ∧
        (0 < a.mlen → Disjoint F.encRk 50 F.mac 50 → Disjoint F.encRk 50 F.macRk 50 → Kept P KK NN F.encRk t)) := by
  refine (sim_store (by simpa using hL) fun s h => ?_).bindEq fun _ => ?_
  · refine ⟨?_, ?_⟩
    · rw [bytesAt_len V.clen_k]; exact h.1
    · rw [bytesAt_len V.clen_npub]; exact h.2
  -- the arrays that live on: that of `isap_rk`, if it can be told apart from the later ones
  refine Rsim.bind (Q := fun _ s _ t => Rel (fun _ => True) F.arrays [] s t ∧ (0 < a.mlen → ∃ Z, Z.take 34 = P.rk KK (P.iv 3) NN 34 ∧
      Rel (fun _ => True) F.arrays [(F.encRk, Z)] s t)) ?_ fun _ _ => ?_
  · refine Rsim.branch ?_
    split
    · intro s t hR u s' hr
      obtain ⟨b, t', h1, Z, hZ, h2⟩ := sim_isapEnc K C (O.arr (by simp [Frame.arrays])) (O.arr2 (by simp [Frame.arrays]) O.enc.symm) hk hN hM (hC.mono (by omega))
        V.k V.npub s t hR u s' hr
      exact ⟨b, t', h1, h2.close, fun _ => ⟨Z, hZ, h2⟩⟩
    · rename_i h0
      exact Rsim.pure fun _ _ hR => ⟨⟨trivial, hR.same, hR.held, hR.mem⟩, fun h => absurd h (by simpa using h0)⟩
  have rest : ∀ fr, Arr e F.arrays fr F.mac → (∀ S, Arr e F.arrays ((F.mac, S) :: fr) F.macRk) → Rsim e (Rel (fun _ => True) F.arrays fr)
      (do
        let tag ← Ref.isapMac G a.k a.npub a.ad a.adlen a.c a.mlen
        storeTag 1 (a.c + a.mlen) tag
        pure (0 : Int))
      (do
        let tag ← isapMac G F.mac F.macRk a.k a.npub a.ad a.adlen a.c a.mlen
        storeTag 1 (a.c + a.mlen) tag
        pure (0 : Int)) (Eq2 (Rel (fun _ => True) F.arrays fr)) := by
    intro fr h1 h2
    refine (sim_isapMac K h1 h2 hk hN hA (hC.mono (by omega))).bind fun T T' => ?_
    intro s t hR
    obtain ⟨⟨rfl, _⟩, hR⟩ := hR
    exact ((sim_storeTag (hC.part (by omega))).bindEq fun _ => Rsim.pure fun _ _ h => ⟨rfl, h⟩) s t hR
  intro s t hR r s' hr
  by_cases h0 : 0 < a.mlen ∧ Disjoint F.encRk 50 F.mac 50 ∧ Disjoint F.encRk 50 F.macRk 50
  · obtain ⟨Z, hZ, hR'⟩ := hR.2 h0.1
    obtain ⟨r', t', h1, rfl, h2⟩ := rest [(F.encRk, Z)] (O.arr2 (by simp [Frame.arrays]) h0.2.1 Z)
      (fun S => ⟨by simp [Frame.arrays], O.wr _ (by simp [Frame.arrays]), O.al _ (by simp [Frame.arrays]), fun x hx => by
        rcases List.mem_cons.1 hx with rfl | hx
        · exact O.mac
        · rw [List.mem_singleton.1 hx]; exact h0.2.2⟩) s t hR' r s' hr
    exact ⟨r, t', h1, rfl, h2.close, fun _ _ _ => h2.kept hZ⟩
  · obtain ⟨r', t', h1, rfl, h2⟩ := rest [] (O.arr (by simp [Frame.arrays])) (O.arr2 (by simp [Frame.arrays]) O.mac) s t hR.1 r s' hr
    exact ⟨r, t', h1, rfl, h2, fun g1 g2 g3 => absurd ⟨g1, g2, g3⟩ h0⟩

/-- The length that `crypto_aead_decrypt` has stored, and its inputs. -/
def Cell (a : DecArgs) (KK NN : List Byte) (s : St) : Prop :=
  bytesAt s a.mlen 8 = toLe64 (BitVec.ofNat 64 (a.clen - 16)) ∧ Inputs a.k a.npub KK NN s

theorem sim_loadLen {a : DecArgs} {KK NN : List Byte} (hlt : a.clen < 2 ^ 64) (h : Off L a.mlen 8) :
    Rsim e (Rel (Cell a KK NN) L fr) (loadLen a.mlen) (loadLen a.mlen)
      (fun x s y t => (x = a.clen - 16 ∧ y = a.clen - 16) ∧ Rel (Cell a KK NN) L fr s t) := by
  intro s t hR x s' hr
  obtain ⟨bs, s1, h1, h2⟩ := runs_bind_inv hr
  obtain ⟨rfl, rfl, hl⟩ := load_inv h1
  obtain ⟨rfl, rfl⟩ := h2.det (runs_pure _ _ _)
  have hc : ∀ u : St, bytesAt u a.mlen 8 = toLe64 (BitVec.ofNat 64 (a.clen - 16)) → (le64 (bytesAt u a.mlen 8)).toNat = a.clen - 16 := by
    intro u hu
    rw [hu, le64_toLe64]
    simp [BitVec.toNat_ofNat, Nat.mod_eq_of_lt (show a.clen - 16 < 2 ^ 64 by omega)]
  exact ⟨_, _, runs_bind (hl t) (runs_pure _ _ _), ⟨hc _ hR.inv.1, hc _ ((h.bytes hR.same).trans hR.inv.1)⟩, hR⟩

theorem sim_decrypt {F : Frame} (K : IsK G) (C : Ref.CfgOK G P) (O : FrameOK e F) {a : DecArgs} {KK NN : List Byte} (V : ValidDecIn e a)
    (hk : Off F.arrays a.k 16) (hN : Off F.arrays a.npub 16)
    (hA : Off F.arrays a.ad a.adlen) (hC : Off F.arrays a.c a.clen) (hM : Off F.arrays a.m (a.clen - 16)) (hL : Off F.arrays a.mlen 8) :
    Rsim e (Rel (Inputs a.k a.npub KK NN) F.arrays []) ((Ref.impl G).aead.decrypt a) ((impl G F).aead.decrypt a)
      (fun r s r' t => r = r' ∧ Rel (fun _ => True) F.arrays [] s t ∧ (r = 0 → 16 < a.clen → Kept P KK NN F.encRk t)) := by
  have hge := V.clen_ge
  have hlt := V.clen_lt
  refine Rsim.bindEq (R' := Rel (Cell a KK NN) F.arrays []) ?_ fun _ => ?_
  · intro s t hR x s' hr
    obtain ⟨rfl, hl⟩ := store_inv hr
    obtain ⟨b, t', h1, h2, h3⟩ := sim_store (fr := []) (I := fun _ => True) (by simpa using hL) (fun _ _ => trivial) s t
      ⟨trivial, hR.same, hR.held, hR.mem⟩ x _ hr
    refine ⟨b, t', h1, h2, ⟨?_, ?_, ?_⟩, h3.same, h3.held, h3.mem⟩
    · rw [bytesAt_putBytes_same' _ _ _ (by simp), len_wrap hge hlt]
    · rw [bytesAt_len V.mlen_k]; exact hR.inv.1
    · rw [bytesAt_len V.mlen_npub]; exact hR.inv.2
  refine (sim_loadLen hlt hL).bind fun l l' s t hR => ?_
  obtain ⟨⟨rfl, rfl⟩, hR⟩ := hR
  refine (Rsim.bind (R := Rel (Cell a KK NN) F.arrays []) (sim_isapMac K (O.arr (by simp [Frame.arrays])) (O.arr2 (by simp [Frame.arrays]) O.mac) hk hN hA
    (hC.mono (by omega))) fun T T' => ?_) s t hR
  intro s t hR
  obtain ⟨⟨rfl, _⟩, hR⟩ := hR
  refine (Rsim.bindEq (R := Rel (Cell a KK NN) F.arrays []) (R' := Rel (Cell a KK NN) F.arrays []) ?_ fun cnt => ?_) s t hR
  · intro s t hR
    refine Rsim.forN 16 0 (fun _ => Eq2 (Rel (Cell a KK NN) F.arrays [])) (fun j hj x y => ?_) 0 0 s t ⟨rfl, hR⟩
    intro s t hR
    obtain ⟨rfl, hR⟩ := hR
    refine (Rsim.bind (R := Rel (Cell a KK NN) F.arrays []) (sim_loadLen hlt hL) fun l l' => ?_) s t hR
    intro s t hR
    obtain ⟨⟨rfl, rfl⟩, hR⟩ := hR
    refine (Rsim.bindEq (R := Rel (Cell a KK NN) F.arrays []) (sim_load8 ?_) fun b => Rsim.pure fun _ _ h => ⟨rfl, h⟩) s t hR
    exact hC.part (by omega)
  refine Rsim.branch ?_
  split
  · refine (sim_loadLen hlt hL).bind fun l l' s t hR => ?_
    obtain ⟨⟨rfl, rfl⟩, hR⟩ := hR
    refine (Rsim.bind (R := Rel (Cell a KK NN) F.arrays []) (Q := fun _ s _ t => Rel (fun _ => True) F.arrays [] s t ∧
      (16 < a.clen → Kept P KK NN F.encRk t)) ?_ fun _ _ => Rsim.pure fun _ _ h => ⟨rfl, h.1, fun _ => h.2⟩) s t hR
    refine Rsim.branch ?_
    split
    · refine (sim_loadLen hlt hL).bind fun l l' s t hR => ?_
      obtain ⟨⟨rfl, rfl⟩, hR⟩ := hR
      intro u s' hr
      obtain ⟨b, t', h1, Z, hZ, h2⟩ := sim_isapEnc K C (O.arr (by simp [Frame.arrays])) (O.arr2 (by simp [Frame.arrays]) O.enc.symm) hk hN (hC.mono (by omega)) hM
        V.k V.npub s t ⟨hR.inv.2, hR.same, hR.held, hR.mem⟩ u s' hr
      exact ⟨b, t', h1, h2.close, fun _ => h2.kept hZ⟩
    · rename_i h0
      exact Rsim.pure fun _ _ hR => ⟨⟨trivial, hR.same, hR.held, hR.mem⟩, fun h => absurd (show a.clen - 16 > 0 by omega) (by simpa using h0)⟩
  · exact Rsim.pure fun _ _ hR => ⟨rfl, ⟨trivial, hR.same, hR.held, hR.mem⟩, fun h => absurd h (by decide)⟩

end Model.KeccakRef.In
