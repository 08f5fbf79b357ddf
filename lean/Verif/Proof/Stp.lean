import Verif.Model.Stp
import Verif.Proof.Api
import Verif.Proof.AsconArm
import Verif.Spec.Stp
/-!
# The stp variants
-/

namespace Model.Opt
open C Spec Spec.Ascon

/-- The macros of an stp `asconp.h` implement the permutations `q` (of the Ascon permutation: `q = p`). -/
structure StpOK (D : StpPrims) (φ : BitVec 64 → BitVec 64) (q : Nat → State → State) : Prop where
  rep : RepOK D.toPrims φ q
  pPVP : ∀ (e : Env) (s : St) S, Runs (D.pPVP (Opt.rep φ S)) e s (Opt.rep φ (q 7 S)) s

theorem RepOK.inj {D : Prims} {φ : BitVec 64 → BitVec 64} {q : Nat → State → State} (O : RepOK D φ q) {a b : BitVec 64}
    (h : φ a = φ b) : a = b := by
  have ha := O.fromWord a
  rw [h, O.fromWord b] at ha
  rw [← ofBe64_be64 a, ← ofBe64_be64 b, ha]

theorem ConstsOK.run7 {κ : Type} {round : State → κ → State} {φ : BitVec 64 → BitVec 64} {k12 k6 k1 : List κ}
    (h : ConstsOK round φ k12 k6 k1) (S : State) : seqRounds round (k12.drop 5 ++ k6 ++ k1) (rep φ S) = rep φ (p 7 S) := by
  obtain ⟨h12, h6, h1, l12, l6, l1⟩ := h
  match k12, l12, h12 with
  | [a0, a1, a2, a3, a4, a5], _, h12 =>
    have := (RoundsOK.run (cs := [a5]) (i := 5) ⟨h12.2.2.2.2.2.1, trivial⟩ S)
    rw [List.append_assoc, seqRounds_append]
    show seqRounds round (k6 ++ k1) (seqRounds round [a5] (rep φ S)) = _
    rw [this, (ConstsOK.mk (k12 := [a0, a1, a2, a3, a4, a5]) h12 h6 h1 rfl l6 l1).run6]
    rfl

theorem runs_switchRounds7 {κ : Type} {round : State → κ → State} {φ : BitVec 64 → BitVec 64} {k12 k6 k1 : List κ}
    (h : ConstsOK round φ k12 k6 k1) {n : Nat} (hn : n = 1 ∨ n = 6 ∨ n = 7 ∨ n = 12) (e : Env) (s : St)
    (S : State) : Runs (switchRounds7 round k12 k6 k1 n (rep φ S)) e s (rep φ (p n S)) s := by
  unfold switchRounds7
  rcases hn with hn | hn | hn | hn <;> subst hn
  · refine runs_if_false (by omega) ?_
    refine runs_if_false (by omega) ?_
    refine runs_if_false (by omega) ?_
    exact runs_pure_eq (h.run1 S)
  · refine runs_if_false (by omega) ?_
    refine runs_if_false (by omega) ?_
    refine runs_if_true rfl ?_
    exact runs_pure_eq (h.run6 S)
  · refine runs_if_false (by omega) ?_
    refine runs_if_true rfl ?_
    exact runs_pure_eq (h.run7 S)
  · refine runs_if_true rfl ?_
    exact runs_pure_eq (h.run12 S)

theorem stpOK_viaProunds7 {κ : Type} {round : State → κ → State} {φ : BitVec 64 → BitVec 64} {k12 k6 k1 : List κ}
    {toWord fromWord toBI : BitVec 64 → BitVec 64} (w : WordOK toWord fromWord toBI φ) (h : ConstsOK round φ k12 k6 k1) :
    StpOK (viaProunds7 (switchRounds7 round k12 k6 k1) toWord fromWord toBI) φ p where
  rep := repOK_viaProunds w fun n hn => runs_switchRounds7 h (by omega)
  pPVP := runs_switchRounds7 h (by omega)

theorem Opt32.stpOK : StpOK Opt32.primsStp id p := stpOK_viaProunds7 wordOK_id Opt32.byteRound.consts
theorem Bi32.stpOK : StpOK Bi32.primsStp φ p := stpOK_viaProunds7 wordOK consts
theorem Armv6m.stpOK : StpOK Armv6m.primsStp Bi32.φ p := by
  rw [Armv6m.primsStp, Armv6m.round_eq]; exact stpOK_viaProunds7 Bi32.wordOK Bi32.consts

namespace Stp
variable {D : StpPrims} {φ : BitVec 64 → BitVec 64} {q : Nat → State → State}

/-- Effect of `isap_mac` on the global variables. -/
def upd (φ : BitVec 64 → BitVec 64) (S : State) (s : St) : St := { s with s0 := φ S.x0, s1 := φ S.x1 }

theorem runs_isapMac (O : StpOK D φ q) {e : Env} (s : St) {k npub ad c : Ptr} {adlen clen : Nat}
    (hlk : Aligned e 8 k 16) (hln : Aligned e 8 npub 16) (hla : Aligned e 8 ad adlen) (hlc : Aligned e 8 c clen)
    (hk : Readable e k 16) (hnp : Readable e npub 16) (had : Readable e ad adlen) (hc : Readable e c clen) :
    Runs (isapMac D k npub ad adlen c clen) e s
      ((PQ q).mac (bytesAt s k 16) (bytesAt s npub 16) (bytesAt s ad adlen) (bytesAt s c clen))
      (upd φ (macSt q (PQ q) (bytesAt s npub 16) (bytesAt s ad adlen) (bytesAt s c clen)) s) := by
  have O' := O.rep
  rw [(isAscon (q := q)).mac_words _ _ (by simp) (by simp)]
  unfold isapMac
  refine runs_bind (runs_macAbsorb O' hln hla hlc hnp had hc) ?_
  generalize hS : macSt q (PQ q) (bytesAt s npub 16) (bytesAt s ad adlen) (bytesAt s c clen) = S
  refine runs_bind (a := ()) (s' := { s with s0 := φ S.x0 }) ⟨_, rfl⟩ ?_
  refine runs_bind (a := ()) (s' := upd φ S s) ⟨_, rfl⟩ ?_
  refine runs_bind (runs_isapRk O' 2 _ 16 hlk hk (y := .loc _) ?_) ?_
  · simp [Src.Ok]
  have hY : (Src.loc (toLe64 (D.fromWord (rep φ S).x0) ++ toLe64 (D.fromWord (rep φ S).x1))).bytes (upd φ S s) 16 =
      be64 S.x0 ++ be64 S.x1 := by
    simp only [rep, O'.fromWord, Src.bytes]
    rw [List.take_of_length_le (by simp)]
  show Runs (D.pH (rkRes _ (rep φ (rkW q (PQ q) (bytesAt s k 16) ((PQ q).iv 2) ((Src.loc (toLe64 (D.fromWord (rep φ S).x0) ++
    toLe64 (D.fromWord (rep φ S).x1))).bytes (upd φ S s) 16))) 16) >>= _) _ _ _ _
  rw [hY]
  refine runs_bind (a := rep φ (macW q (PQ q) (bytesAt s k 16) (bytesAt s npub 16) (bytesAt s ad adlen) (bytesAt s c clen)))
    (s' := upd φ S s) ?_ ?_
  · simp only [macW, hS]
    exact O'.pH e _ { S with x0 := _, x1 := _ }
  · refine runs_eq (runs_pure _ _ _) ?_
    simp only [rep, O'.fromWord]

/-- With the Ascon permutation. -/
theorem runs_isapMacA (O : StpOK D φ p) {e : Env} (s : St) {k npub ad c : Ptr} {adlen clen : Nat}
    (hlk : Aligned e 8 k 16) (hln : Aligned e 8 npub 16) (hla : Aligned e 8 ad adlen) (hlc : Aligned e 8 c clen)
    (hk : Readable e k 16) (hnp : Readable e npub 16) (had : Readable e ad adlen) (hc : Readable e c clen) :
    Runs (isapMac D k npub ad adlen c clen) e s
      (isapA128a.mac (bytesAt s k 16) (bytesAt s npub 16) (bytesAt s ad adlen) (bytesAt s c clen))
      (upd φ (macSt p isapA128a (bytesAt s npub 16) (bytesAt s ad adlen) (bytesAt s c clen)) s) :=
  runs_isapMac O s hlk hln hla hlc hk hnp had hc

theorem macMemOK (O : StpOK D φ q) : MacMemOK (PQ q) .byWords (isapMac D) :=
  fun _ s _ _ _ _ _ _ a1 a2 a3 a4 _ _ hk hn had hc _ _ => ⟨_, runs_isapMac O s a1 a2 a3 a4 hk hn had hc, rfl⟩

/-- The words compared by `pvp`. -/
def img (q : Nat → State → State) (S : State) (T : List Byte) : State := q 7 ⟨ofBe64 T, ofBe64 (T.drop 8), S.x0, S.x1, 0⟩

theorem runs_pvpHalf (O : StpOK D φ q) (e : Env) (s : St) {S : State} {T : List Byte} (hT : T.length = 16)
    (h0 : s.s0 = φ S.x0) (h1 : s.s1 = φ S.x1) : Runs (pvpHalf D T) e s (rep φ (img q S T)) s := by
  have O' := O.rep
  unfold pvpHalf
  refine runs_bind (a := φ S.x0) (s' := s) ⟨_, by rw [← h0]; rfl⟩ ?_
  refine runs_bind (a := φ S.x1) (s' := s) ⟨_, by rw [← h1]; rfl⟩ ?_
  have e1 : D.toWord (le64 T) = φ (ofBe64 T) := by
    have : le64 T = le64 (T.take 8) := by
      apply BitVec.eq_of_getLsbD_eq; intro i hi
      rw [getLsbD_le64 _ hi, getLsbD_le64 _ hi]
      simp [List.getD, show i / 8 < 8 by omega]
    rw [this, O'.toWord _ (by simp; omega), ofBe64_take]
  rw [e1, O'.toWord (T.drop 8) (by simp; omega)]
  have : (0 : BitVec 64) = φ 0 := O'.zero.symm
  rw [this]
  exact O.pPVP e s ⟨_, _, _, _, _⟩

theorem byteOf_eq (x : BitVec 64) {i : Nat} (hi : i < 8) : byteOf x i = (toLe64 x).getD i 0 := by
  rw [getD_toLe64 x hi, byteOf]

/-- The two comparison loops of `pvp`. -/
theorem runs_pvpCount (O : StpOK D φ q) (e : Env) (s : St) (u v : State) :
    ∃ n, Runs (do
        let cnt ← forN 8 0 (fun i (cnt : Nat) => pure (cnt + if byteOf (rep φ v).x0 i = byteOf (rep φ u).x0 i then 1 else 0)) 0
        forN 8 0 (fun i (cnt : Nat) => pure (cnt + if byteOf (rep φ v).x1 i = byteOf (rep φ u).x1 i then 1 else 0)) cnt) e s n s ∧
      (n = 16 ↔ u.x0 = v.x0 ∧ u.x1 = v.x1) := by
  have O' := O.rep
  let f0 : Nat := (List.range 8).foldl (fun cnt i => cnt + if (toLe64 (φ v.x0)).getD i 0 = (toLe64 (φ u.x0)).getD i 0 then 1 else 0) 0
  let f1 : Nat := (List.range 8).foldl (fun cnt i => cnt + if (toLe64 (φ v.x1)).getD i 0 = (toLe64 (φ u.x1)).getD i 0 then 1 else 0) 0
  have c0 := count_eq (toLe64 (φ v.x0)) (toLe64 (φ u.x0)) 8 (by simp) (by simp)
  have c1 := count_eq (toLe64 (φ v.x1)) (toLe64 (φ u.x1)) 8 (by simp) (by simp)
  rw [List.take_of_length_le (by simp), List.take_of_length_le (by simp)] at c0 c1
  have shift : ∀ (g : Nat → Nat) (l : List Nat) (n : Nat), l.foldl (fun cnt i => cnt + g i) n = n + l.foldl (fun cnt i => cnt + g i) 0 := by
    intro g l
    induction l with
    | nil => simp
    | cons a l ih => intro n; simp only [List.foldl_cons]; rw [ih (n + g a), ih (0 + g a)]; omega
  have loop : ∀ (a b : BitVec 64) (n : Nat), Runs (forN 8 0 (fun i (cnt : Nat) => (pure (cnt + if byteOf a i = byteOf b i then 1 else 0) : CM Nat)) n) e s
      (n + (List.range 8).foldl (fun cnt i => cnt + if (toLe64 a).getD i 0 = (toLe64 b).getD i 0 then 1 else 0) 0) s := by
    intro a b n
    refine runs_eq (runs_forN_fold 8 0 n (g := fun i cnt => cnt + if (toLe64 a).getD i 0 = (toLe64 b).getD i 0 then 1 else 0) ?_) ?_
    · intro j hj x
      rw [Nat.zero_add, byteOf_eq a hj, byteOf_eq b hj]
      exact runs_pure _ _ _
    · exact shift _ _ _
  refine ⟨f0 + f1, ?_, ?_⟩
  · refine runs_bind (loop _ _ 0) (runs_eq (loop _ _ _) ?_)
    show 0 + f0 + f1 = f0 + f1
    omega
  · have inj : ∀ {a b : BitVec 64}, toLe64 (φ a) = toLe64 (φ b) ↔ a = b := by
      intro a b
      constructor
      · intro h
        have := congrArg le64 h
        rw [le64_toLe64, le64_toLe64] at this
        exact O'.inj this
      · intro h; rw [h]
    have h0 : f0 ≤ 8 ∧ (f0 = 8 ↔ u.x0 = v.x0) := ⟨c0.1, c0.2.trans (inj.trans eq_comm)⟩
    have h1 : f1 ≤ 8 ∧ (f1 = 8 ↔ u.x1 = v.x1) := ⟨c1.1, c1.2.trans (inj.trans eq_comm)⟩
    rw [← h0.2, ← h1.2]
    omega

theorem runs_pvp (O : StpOK D φ q) (e : Env) (s : St) {S : State} {T T' : List Byte} (hT : T.length = 16) (hT' : T'.length = 16)
    (h0 : s.s0 = φ S.x0) (h1 : s.s1 = φ S.x1) :
    ∃ n, Runs (pvp D T T') e s n s ∧ (n = 16 ↔ (img q S T).x0 = (img q S T').x0 ∧ (img q S T).x1 = (img q S T').x1) := by
  obtain ⟨n, hn, hc⟩ := runs_pvpCount O e s (img q S T) (img q S T')
  refine ⟨n, ?_, hc⟩
  unfold pvp
  exact runs_bind (runs_pvpHalf O e s hT h0 h1) (runs_bind (runs_pvpHalf O e s hT' h0 h1) hn)

theorem image_eq {N A C T : List Byte} (hN : N.length = 16) (hT : T.length = 16) :
    Stp.image (PQ q) ((PQ q).macState N A C) T =
      be64 (img q (macSt q (PQ q) N A C) T).x0 ++ be64 (img q (macSt q (PQ q) N A C) T).x1 := by
  have A' : IsAscon q (PQ q) := isAscon
  have hdom : ∀ S, (PQ q).domSep (toBytes S) = toBytes { S with x4 := S.x4 ^^^ 1 } := by
    intro S
    rw [Params.domSep_eq A'.wf (by rw [length_toBytes, A'.n]), A'.n]
    exact xorAt_last S
  have hst : (PQ q).macState N A C = toBytes (macSt q (PQ q) N A C) := by
    simp only [Params.macState, Params.ivA]
    rw [A'.initState_words hN, A'.pH, A'.absorb_words, hdom, A'.absorb_words]
    rfl
  rw [Stp.image, hst, take16 (macSt q (PQ q) N A C)]
  generalize macSt q (PQ q) N A C = S
  have : T ++ (be64 S.x0 ++ be64 S.x1) ++ zeros 8 = toBytes ⟨ofBe64 T, ofBe64 (T.drop 8), S.x0, S.x1, 0⟩ := by
    simp only [toBytes]
    rw [be64_ofBe64 T (by omega), be64_ofBe64 (T.drop 8) (by simp; omega), List.take_of_length_le (l := T.drop 8) (by simp; omega),
      List.take_append_drop, show be64 (0 : BitVec 64) = zeros 8 by decide +kernel]
    simp only [List.append_assoc]
  rw [this, show ∀ b, (PQ q).perm 7 b = toBytes (q 7 (ofBytes b)) from fun _ => rfl, ofBytes_toBytes, take16]
  rfl

theorem accepts_iff {K N A C T : List Byte} (hK : K.length = 16) (hN : N.length = 16) (hT : T.length = 16) :
    Stp.Accepts (PQ q) K N A C T ↔
      (img q (macSt q (PQ q) N A C) ((PQ q).mac K N A C)).x0 = (img q (macSt q (PQ q) N A C) T).x0 ∧
      (img q (macSt q (PQ q) N A C) ((PQ q).mac K N A C)).x1 = (img q (macSt q (PQ q) N A C) T).x1 := by
  have A' : IsAscon q (PQ q) := isAscon
  rw [Stp.Accepts, image_eq hN hT, image_eq hN (Params.length_mac A'.wf _ _ hK hN)]
  constructor
  · intro h
    have := List.append_inj h (by simp)
    exact ⟨by rw [← ofBe64_be64 (img q _ T).x0, this.1, ofBe64_be64], by rw [← ofBe64_be64 (img q _ T).x1, this.2, ofBe64_be64]⟩
  · intro ⟨h0, h1⟩
    rw [h0, h1]

/-- Reading the received tag byte by byte. -/
theorem runs_readTag {e : Env} {s : St} {mlen c : Ptr} {l n : Nat} (hl : Runs (loadLen mlen) e s l s)
    (hc : Readable e (c + l) n) :
    Runs (forN n 0 (fun i (t : List Byte) => do
      let l ← loadLen mlen
      let b ← load8 (c + (l + i))
      pure (t ++ [b])) []) e s (bytesAt s (c + l) n) s := by
  refine runs_forN_pure n 0 (fun j => bytesAt s (c + l) j) ?_
  intro j hj
  rw [Nat.zero_add]
  refine runs_bind hl ?_
  have hb := runs_load8_at (e := e) (s := s) (p := c + l) (n := n) (i := j) hc hj
  rw [add_add] at hb
  refine runs_bind hb (runs_eq (runs_pure _ _ _) ?_)
  simp [bytesAt, List.range_succ, List.getD, hj]

theorem decryptOK (O : StpOK D φ q) : DecryptOK (PQ q) .byWords (Stp.Accepts (PQ q)) (aead D).decrypt := by
  have O' := O.rep
  have W : (PQ q).Wf := (isAscon (q := q)).wf
  have henc : EncOK (PQ q) .byWords (isapEnc D.toPrims) := encOK O'
  intro e s a V B
  obtain ⟨Bc, Bm, Blt⟩ := And.intro B.c (And.intro B.m B.clen_lt)
  generalize hl : a.clen - 16 = l at *
  have hge := V.clen_ge
  have hlt := V.clen_lt
  have hlcell : BitVec.ofNat 64 (a.clen + (2 ^ 64 - 16)) = BitVec.ofNat 64 l := by
    apply BitVec.eq_of_toNat_eq
    simp only [BitVec.toNat_ofNat]
    rw [show a.clen + (2 ^ 64 - 16) = l + 2 ^ 64 by omega, Nat.add_mod_right]
  generalize hs1 : putBytes s a.mlen (toLe64 (BitVec.ofNat 64 l)) = s1
  have hcell : bytesAt s1 a.mlen 8 = toLe64 (BitVec.ofNat 64 l) := by
    rw [← hs1, bytesAt_putBytes_same' _ _ _ (by simp)]
  have b1 : ∀ p n, Disjoint a.mlen 8 p n → bytesAt s1 p n = bytesAt s p n := by
    intro p n h
    rw [← hs1, bytesAt_putBytes_disjoint _ _ _ _ _ (by simpa using h.symm)]
  have hk := b1 _ _ V.mlen_k
  have hN := b1 _ _ V.mlen_npub
  have hA := b1 _ _ V.mlen_ad
  have hC : bytesAt s1 a.c l = bytesAt s a.c l := b1 _ _ (V.mlen_c.mono (Nat.le_refl _) (by omega))
  have hT : bytesAt s1 (a.c + l) 16 = bytesAt s (a.c + l) 16 := by
    apply b1
    have := V.mlen_c
    unfold Disjoint at *
    simp only [add_blk, add_off]; omega
  have hloadLen : Runs (loadLen a.mlen) e s1 l s1 := runs_loadLen V.mlen (by omega) hcell rfl
  have hm := runs_isapMac O s1 B.k B.npub B.ad Bc V.k V.npub V.ad (V.c.mono (show l ≤ a.clen by omega))
  rw [hk, hN, hA, hC] at hm
  rw [accepts_iff (by simp) (by simp) (by simp)]
  have hTl : ((PQ q).mac (bytesAt s a.k 16) (bytesAt s a.npub 16) (bytesAt s a.ad a.adlen) (bytesAt s a.c l)).length = 16 :=
    Spec.Params.length_mac W _ _ (by simp) (by simp)
  generalize (PQ q).mac (bytesAt s a.k 16) (bytesAt s a.npub 16) (bytesAt s a.ad a.adlen) (bytesAt s a.c l) = T at *
  generalize macSt q (PQ q) (bytesAt s a.npub 16) (bytesAt s a.ad a.adlen) (bytesAt s a.c l) = S at *
  generalize hs2 : upd φ S s1 = s2 at hm
  have hmem : s2.mem = s1.mem := by rw [← hs2]; rfl
  have b2 : ∀ p n, bytesAt s2 p n = bytesAt s1 p n := bytesAt_mem_congr hmem
  have hloadLen2 : Runs (loadLen a.mlen) e s2 l s2 :=
    runs_loadLen V.mlen (by omega) ((b2 _ _).trans hcell) rfl
  have hread := runs_readTag hloadLen2 (show Readable e (a.c + l) 16 from V.c.add (by omega))
  rw [b2, hT] at hread
  generalize hT' : bytesAt s (a.c + l) 16 = T' at *
  have hTl' : T'.length = 16 := by rw [← hT']; simp
  obtain ⟨n, hpvp, hn⟩ := runs_pvp O e s2 hTl hTl' (S := S) (by rw [← hs2]; rfl) (by rw [← hs2]; rfl)
  rw [← hn]
  have common : ∀ (r : Int) (sf : St),
      Runs (do
        let ok ← branch (decide (n = 16))
        if ok then
          let l ← loadLen a.mlen
          ifThen (l > 0) do
            let l ← loadLen a.mlen
            isapEnc D.toPrims a.k a.npub a.c l a.m
          pure 0
        else
          pure (-1)) e s2 r sf → Runs ((aead D).decrypt a) e s r sf := by
    intro r sf h
    refine runs_bind (runs_storeLen V.mlen) ?_
    rw [hlcell, hs1]
    exact runs_bind hloadLen (runs_bind hm (runs_bind hread (runs_bind hpvp h)))
  constructor
  · intro hacc V'
    refine ⟨putBytes s2 a.m ((PQ q).enc (bytesAt s a.k 16) (bytesAt s a.npub 16) (bytesAt s a.c l)), common 0 _ ?_,
      putBytes_mem_congr hmem⟩
    refine runs_if_true hacc ?_
    refine runs_bind hloadLen2 ?_
    refine runs_bind (a := ()) ?_ (runs_pure _ _ _)
    by_cases h0 : l > 0
    · have he := henc e s2 a.k a.npub a.c l a.m B.k B.npub Bc Bm Blt V.k V.npub (V.c.mono (by omega)) (by rw [← hl]; exact V'.m)
        (by rw [← hl]; exact V'.m_c)
      rw [b2, b2, b2, hk, hN, hC] at he
      exact runs_ifThen_true h0 (runs_bind hloadLen2 he)
    · have h0' : l = 0 := by omega
      have : (PQ q).enc (bytesAt s a.k 16) (bytesAt s a.npub 16) (bytesAt s a.c l) = [] := by
        apply List.length_eq_zero_iff.1; simp [h0']
      rw [this, putBytes_nil]
      exact runs_ifThen_false h0
  · intro hacc
    refine ⟨s2, common (-1) _ ?_, hmem⟩
    exact runs_if_false hacc (runs_pure _ _ _)

theorem encryptOK (O : StpOK D φ q) : EncryptOK (PQ q) .byWords (aead D).encrypt :=
  Model.encryptOK (I := impl D) (isAscon (q := q)).wf (Nat.le_add_right · 16) (macMemOK O) (encOK O.rep) rfl
    ⟨16, rfl⟩

end Stp
end Model.Opt
