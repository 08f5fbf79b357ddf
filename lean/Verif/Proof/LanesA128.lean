import Verif.Proof.Lanes
/-!
# The optimized versions of ISAP-A-128 with either byte order
-/

namespace Model.A128
open C Spec Spec.Ascon

variable {e : Env} {s : St} {o : ByteOrder}

/-! ## opt_64 -/

namespace Opt64.Ord

/-- What the code computes. -/
def lanes (o : ByteOrder) (D : Cfg) : Lanes where
  ld B := u64big (word o B)
  st w := bytes o (u64big w)
  part X := u64big (word o (X ++ [0x80] ++ zeros (7 - X.length)))
  full := 0x8000000000000000
  empty := u64big (word o ([0x80] ++ zeros 7))
  bit b := (Params.bitByte b).setWidth 64 <<< 56
  one := 1
  iv i := u64big (word o (D.iv i))
  pH := D.pH
  pB := D.pB
  pE := D.pE
  pK := D.pH

variable {D : Cfg}

theorem runs_absorbMac (S : State) {src : Ptr} {len : Nat} (hd : len < D.dm.ulong) (hal : Aligned e 8 src len)
    (h : Readable e src len) : Runs (absorbMac o D.pH D.dm S src len) e s ((lanes o D).absorb S (bytesAt s src len)) s := by
  unfold absorbMac absorbLanes
  rw [Nat.mod_eq_of_lt hd, whileRem_eq]
  obtain ⟨hb1, hb2⟩ := remBlocks_le (r := 8) (by decide) len
  generalize hn : remBlocks 8 len = n at *
  have blk_eq : ∀ j, 8 * j + 8 ≤ len → bytesAt s (src + 8 * j) 8 = ((bytesAt s src len).drop (8 * j)).take 8 := by
    intro j hj
    rw [bytesAt_drop, bytesAt_take _ _ _ _ (by omega)]
  refine runs_bind (a := { (lanes o D).absN S (bytesAt s src len) (len / 8) with
    x0 := ((lanes o D).absN S (bytesAt s src len) (len / 8)).x0 ^^^ (lanes o D).padding (bytesAt s src len) }) (s' := s) ?_
    (Opt.runs_pure_eq (by rw [Lanes.absorb, length_bytesAt]; rfl))
  refine runs_bind (a := (lanes o D).absN S (bytesAt s src len) n) (s' := s) ?_ ?_
  · refine runs_forN_pure n 0 (fun j => (lanes o D).absN S (bytesAt s src len) j) ?_
    intro j hj
    rw [Nat.zero_add]
    refine runs_bind (runs_load64In (hal.add (by omega) (by omega)) (h.add (by omega))) ?_
    rw [blk_eq _ (by omega)]
    exact runs_pure _ _ _
  · by_cases h8 : len - 8 * n = 8
    · refine runs_if_true h8 ?_
      simp only [Nat.zero_add]
      refine runs_bind (runs_load64In (hal.add (by omega) (by omega)) (h.add (by omega))) ?_
      rw [blk_eq _ (by omega)]
      refine Opt.runs_pure_eq ?_
      rw [Lanes.padding, length_bytesAt, show len / 8 = n + 1 by omega, if_neg (by omega), if_neg (by omega)]
      rfl
    · refine runs_if_false h8 ?_
      simp only [Nat.zero_add]
      have hrem := remBlocks_part (r := 8) (by decide) (len := len) (by rw [hn]; exact h8)
      have hz : len % 8 = 0 → len = 0 := by
        intro h0
        simp only [remBlocks] at hrem
        omega
      refine runs_bind (Opt64.runs_padLane (by omega) (h.add (by omega))) ?_
      refine Opt.runs_pure_eq ?_
      rw [Lanes.padding, length_bytesAt, show len / 8 = n by omega, bytesAt_drop]
      by_cases h0 : len % 8 = 0
      · rw [if_neg (by omega), if_pos (hz h0), show len - 8 * n = 0 by omega, bytesAt_zero]
        rfl
      · rw [if_pos h0]
        show _ = ({ (lanes o D).absN S (bytesAt s src len) n with
          x0 := ((lanes o D).absN S (bytesAt s src len) n).x0 ^^^ u64big (word o (bytesAt s (src + 8 * n) (len - 8 * n) ++
            [0x80] ++ zeros (7 - (bytesAt s (src + 8 * n) (len - 8 * n)).length))) } : State)
        rw [length_bytesAt]

theorem runs_isapRk {k : Ptr} {y : Src} (i : Nat) (out : State) (outlen : Nat)
    (hal : Aligned e 8 k 16) (hk : Readable e k 16) (hy : y.Ok e 16) :
    Runs (isapRk o D k (D.iv i) y out outlen) e s
      (rkRes out ((lanes o D).rk (bytesAt s k 16) i (y.bytes s 16)) outlen) s := by
  unfold isapRk
  refine runs_bind (runs_load64In (hal.add (by decide) (by omega)) (hk.add (by omega))) ?_
  refine runs_bind (runs_load64In (hal.add (by decide) (by omega)) (hk.add (by omega))) ?_
  have hinit : (⟨u64big (word o (bytesAt s (k + 0) 8)), u64big (word o (bytesAt s (k + 8) 8)), u64big (word o (D.iv i)), 0, 0⟩ : State) =
      ⟨(lanes o D).ld ((bytesAt s k 16).take 8), (lanes o D).ld ((bytesAt s k 16).drop 8), (lanes o D).iv i, 0, 0⟩ := by
    rw [bytesAt_drop, bytesAt_take _ _ _ _ (by omega)]
    rfl
  rw [hinit]
  generalize hY : y.bytes s 16 = Y
  unfold Lanes.rk
  generalize hS : (lanes o D).pK ⟨(lanes o D).ld ((bytesAt s k 16).take 8), (lanes o D).ld ((bytesAt s k 16).drop 8),
    (lanes o D).iv i, 0, 0⟩ = S
  rw [show D.pH ⟨(lanes o D).ld ((bytesAt s k 16).take 8), (lanes o D).ld ((bytesAt s k 16).drop 8),
    (lanes o D).iv i, 0, 0⟩ = S from hS]
  refine runs_bind (a := (lanes o D).rkN S Y 127) (s' := s) ?_ ?_
  · refine runs_forN_pure 127 0 (fun j => (lanes o D).rkN S Y j) ?_
    intro j hj
    rw [Nat.zero_add]
    refine runs_bind (runs_get hy (i := j / 8) (by omega)) ?_
    rw [hY, yBit_ybit]
    exact runs_pure _ _ _
  · refine runs_bind (runs_get hy (i := 15) (by omega)) ?_
    rw [hY, lastBit_ybit]
    unfold rkRes
    by_cases h : outlen = 24
    · refine runs_if_true h ?_
      rw [if_pos h]
      exact runs_pure _ _ _
    · refine runs_if_false h ?_
      rw [if_neg h]
      exact runs_pure _ _ _

theorem runs_macAbsorb {npub ad c : Ptr} {adlen clen : Nat} (hda : adlen < D.dm.ulong) (hdc : clen < D.dm.ulong)
    (hln : Aligned e 8 npub 16) (hla : Aligned e 8 ad adlen) (hlc : Aligned e 8 c clen)
    (hn : Readable e npub 16) (had : Readable e ad adlen) (hc : Readable e c clen) :
    Runs (macAbsorb o D npub ad adlen c clen) e s
      ((lanes o D).macSt (bytesAt s npub 16) (bytesAt s ad adlen) (bytesAt s c clen)) s := by
  unfold macAbsorb
  refine runs_bind (runs_load64In (hln.add (by decide) (by omega)) (hn.add (by omega))) ?_
  refine runs_bind (runs_load64In (hln.add (by decide) (by omega)) (hn.add (by omega))) ?_
  have hinit : (⟨u64big (word o (bytesAt s (npub + 0) 8)), u64big (word o (bytesAt s (npub + 8) 8)), u64big (word o (D.iv 1)), 0, 0⟩ : State) =
      ⟨(lanes o D).ld ((bytesAt s npub 16).take 8), (lanes o D).ld ((bytesAt s npub 16).drop 8), (lanes o D).iv 1, 0, 0⟩ := by
    rw [bytesAt_drop, bytesAt_take _ _ _ _ (by omega)]
    rfl
  rw [hinit]
  refine runs_bind (runs_absorbMac _ hda hla had) ?_
  exact runs_absorbMac _ hdc hlc hc

theorem lanesMac : (lanes o D).cipher.MacOK ⟨8, 8, D.dm.ulong, id⟩ (isapMac o D) := by
  intro e s k npub ad adlen c clen hlk hln hla hlc hda hdc hk hnp had hc
  unfold isapMac
  refine runs_bind (runs_macAbsorb hda hdc hln hla hlc hnp had hc) ?_
  show Runs _ e s ((lanes o D).st ((lanes o D).macFin (bytesAt s k 16) ((lanes o D).macSt (bytesAt s npub 16) (bytesAt s ad adlen) (bytesAt s c clen))).x0 ++
    (lanes o D).st ((lanes o D).macFin (bytesAt s k 16) ((lanes o D).macSt (bytesAt s npub 16) (bytesAt s ad adlen) (bytesAt s c clen))).x1) s
  generalize (lanes o D).macSt (bytesAt s npub 16) (bytesAt s ad adlen) (bytesAt s c clen) = S
  refine runs_bind (runs_isapRk 2 _ 16 hlk hk (y := .loc _) ?_) ?_
  · simp [Src.Ok]
  have hY : (Src.loc (bytes o (u64big S.x0) ++ bytes o (u64big S.x1))).bytes s 16 = (lanes o D).st S.x0 ++ (lanes o D).st S.x1 := by
    simp only [Src.bytes]
    rw [List.take_of_length_le (by simp)]
    rfl
  rw [hY]
  refine Opt.runs_pure_eq ?_
  simp only [rkRes, Nat.reduceEqDiff, if_false, u64big_u64big]
  rfl

theorem lanesEnc : (lanes o D).cipher.EncOK ⟨8, 8, D.dm.ulong, id⟩ (isapEnc o D) := by
  intro e s k npub m mlen c hlk hln hlm hlc hd hk hnp hm hc hov
  dsimp only at hlk hln hlm hlc hd
  unfold isapEnc
  refine runs_bind (runs_isapRk 3 _ 24 hlk hk (y := .ext npub) hnp) ?_
  refine runs_bind (runs_load64In (hln.add (by decide) (by omega)) (hnp.add (by omega))) ?_
  refine runs_bind (runs_load64In (hln.add (by decide) (by omega)) (hnp.add (by omega))) ?_
  simp only [rkRes, if_true, u64big_u64big]
  have hinit : (⟨((lanes o D).rk (bytesAt s k 16) 3 ((Src.ext npub).bytes s 16)).x0,
        ((lanes o D).rk (bytesAt s k 16) 3 ((Src.ext npub).bytes s 16)).x1,
        ((lanes o D).rk (bytesAt s k 16) 3 ((Src.ext npub).bytes s 16)).x2,
        u64big (word o (bytesAt s (npub + 0) 8)), u64big (word o (bytesAt s (npub + 8) 8))⟩ : State) =
      (lanes o D).encSt (bytesAt s k 16) (bytesAt s npub 16) := by
    simp only [Lanes.encSt, Src.bytes]
    rw [bytesAt_drop, bytesAt_take _ _ _ _ (by omega)]
    rfl
  rw [hinit, whileRem_eq]
  show Runs _ e s () (putBytes s c (xorStream 8 ((lanes o D).ks (bytesAt s k 16) (bytesAt s npub 16)) (bytesAt s m mlen)))
  have hks : ∀ i, (lanes o D).ks (bytesAt s k 16) (bytesAt s npub 16) i =
      bytes o (u64big (Nat.repeat D.pE (i + 1) ((lanes o D).encSt (bytesAt s k 16) (bytesAt s npub 16))).x0) := fun _ => rfl
  generalize (lanes o D).ks (bytesAt s k 16) (bytesAt s npub 16) = KS at *
  generalize (lanes o D).encSt (bytesAt s k 16) (bytesAt s npub 16) = I at *
  have hkl : ∀ i, (KS i).length = 8 := fun i => by rw [hks]; simp
  obtain ⟨hb1, hb2⟩ := remBlocks_le (r := 8) (by decide) mlen
  generalize remBlocks 8 mlen = n at *
  have full : ∀ j st {α : Type} {a : α} {f : CM α}, 8 * j + 8 ≤ mlen →
      (∀ st', Runs f e st' a st') →
      Runs (do
        let d ← load64In o (m + 8 * (j % D.dm.ulong))
        store64In o (c + 8 * (j % D.dm.ulong)) (u64big (Nat.repeat D.pE (j + 1) I).x0 ^^^ d)
        f) e st a
        (putBytes st (c + 8 * j) (xorBytes (bytesAt st (m + 8 * j) 8) (KS j))) := by
    intro j st α a f hj hf
    rw [Nat.mod_eq_of_lt (show j < D.dm.ulong by omega)]
    refine runs_bind (runs_load64In (hlm.add (Nat.mul_mod_right 8 j) hj) (hm.add hj)) ?_
    refine runs_bind (a := ()) (runs_store64In (hlc.add (Nat.mul_mod_right 8 j) hj) (hc.add hj)) (runs_eq2 (hf _) rfl ?_)
    rw [BitVec.xor_comm, bytes_xor_word _ _ (by simp), hks]
  refine runs_bind (a := Nat.repeat D.pE (n + 1) I)
    (s' := putBytes s c (xorStream 8 KS (bytesAt s m mlen))) ?_ (runs_pure _ _ _)
  refine runs_bind (a := Nat.repeat D.pE (n + 1) I) (runs_streamBlocks (by decide) hkl
    n (by omega) (fun j => Nat.repeat D.pE (j + 1) I) hov ?_) ?_
  · intro j hj st
    exact full j st (by omega) fun st' => runs_pure _ _ _
  · have hl := stream_rest (by decide) hkl s hov (n := n) (w := mlen - 8 * n) hb2 (by omega) _ rfl
    by_cases h8 : mlen - 8 * n = 8
    · refine runs_if_true h8 ?_
      rw [← hl, h8, Nat.zero_add]
      refine runs_eq2 (full n _ (by omega) fun st' => runs_pure _ _ _) rfl ?_
      rw [List.take_of_length_le (l := KS n) (by rw [hkl]; omega)]
    · refine runs_if_false h8 ?_
      rw [← hl, Nat.zero_add, Nat.mod_eq_of_lt (show 8 * n < D.dm.ulong by omega)]
      refine runs_bind (a := ()) ?_ (runs_pure _ _ _)
      simp only [BitVec.xor_comm ((bytes _ _).getD _ 0)]
      refine runs_xorLoop _ (OverlapOK.add hov (by omega)) (hm.add (by omega)) (hc.add (by omega)) ?_ ?_
      · simp [hkl]; omega
      · intro i hi
        rw [hks]
        simp only [List.getD, List.getElem?_take, if_pos hi]

/-- The code computes these functions. -/
theorem lanesImpl (D : Cfg) : (lanes o D).cipher.Impl ⟨8, 8, D.dm.ulong, id⟩ (impl o D) where
  ok := Lanes.cipher_ok _ fun _ => length_bytes ..
  mac := lanesMac
  enc := lanesEnc
  tag := rfl
  dvd := ⟨2, rfl⟩

end Opt64.Ord

/-! ## opt_32 and opt_32_armv67m -/

namespace Opt32.Ord

/-- What the code computes, with `q` for the permutation. -/
def lanes (o : ByteOrder) (q : State → State) : Lanes where
  ld B := toWord (word o B)
  st w := bytes o (fromWord w)
  part X := toWord (word o (X ++ [0x80] ++ zeros (7 - X.length)))
  full := Opt.Bi32.lane 0 0x80000000
  empty := Opt.Bi32.lane 0 0x80000000
  bit b := Opt.Bi32.lane 0 ((Params.bitByte b).setWidth 32 <<< 24)
  one := Opt.Bi32.lane 1 0
  iv i := toWord (word o (iv i))
  pH := q
  pB := q
  pE := q
  pK := q

/-- Both forms of the permutation are the function `q`. -/
structure PureOK (D : Prims) (q : State → State) : Prop where
  pL : ∀ (e : Env) (s : St) S, Runs (D.pL S) e s (q S) s
  pU : ∀ (e : Env) (s : St) S, Runs (D.pU S) e s (q S) s

theorem xorO_eq (S : State) (v : BitVec 32) : xorO S v = { S with x0 := S.x0 ^^^ Opt.Bi32.lane 0 v } := by
  simp only [xorO, State.mk.injEq, and_true]
  refine (Opt.Arm.eq_lane ?_ ?_).symm
  · rw [Opt.Arm.w0_xor, Opt.Arm.w0_lane]; exact BitVec.xor_zero
  · rw [Opt.Arm.w1_xor, Opt.Arm.w1_lane]

theorem xorE_eq (x : BitVec 64) : Opt.Bi32.lane (Opt.Bi32.w0 x ^^^ 1) (Opt.Bi32.w1 x) = x ^^^ Opt.Bi32.lane 1 0 := by
  refine (Opt.Arm.eq_lane ?_ ?_).symm
  · rw [Opt.Arm.w0_xor, Opt.Arm.w0_lane]
  · rw [Opt.Arm.w1_xor, Opt.Arm.w1_lane]; exact BitVec.xor_zero

variable {D : Prims} {q : State → State} (O : PureOK D q)
include O

theorem runs_tail (S : State) {src : Ptr} {len : Nat} (hl : len < 8) (h : Readable e src len) :
    Runs (absorbPart o D S src len >>= fun S => absorbPad D S len) e s
      (q { S with x0 := S.x0 ^^^ if len > 0 then (lanes o q).part (bytesAt s src len) else (lanes o q).full }) s := by
  by_cases h0 : len > 0
  · rw [if_pos h0]
    refine runs_bind (a := q { S with x0 := S.x0 ^^^ (lanes o q).part (bytesAt s src len) }) (s' := s) ?_ ?_
    · unfold absorbPart
      refine runs_if_true h0 ?_
      refine runs_bind (a := bytesAt s src len ++ zeros (8 - len)) (s' := s) ?_ ?_
      · refine runs_forN_pure len 0 (fun j => bytesAt s src j ++ zeros (8 - j)) ?_
        intro j hj
        rw [Nat.zero_add]
        refine runs_bind (runs_load8_at h hj) (Opt.runs_pure_eq ?_)
        rw [show 8 - j = (8 - (j + 1)) + 1 by omega, set_zeros _ (by simp), getD_bytesAt _ _ hj, bytesAt_succ]
      · rw [show 8 - len = (7 - len) + 1 by omega, set_zeros _ (by simp)]
        refine runs_eq (O.pL e s _) ?_
        show _ = q { S with x0 := S.x0 ^^^ toWord (word o (bytesAt s src len ++ [0x80] ++ zeros (7 - (bytesAt s src len).length))) }
        rw [length_bytesAt]
    · exact runs_if_false (show ¬ len = 0 by omega) (runs_pure _ _ _)
  · rw [if_neg h0]
    have : len = 0 := by omega
    subst this
    refine runs_bind (a := S) (s' := s) (runs_if_false (by omega) (runs_pure _ _ _)) ?_
    refine runs_if_true rfl ?_
    rw [xorO_eq]
    exact O.pL e s _

theorem runs_absorb (S : State) {src : Ptr} {len : Nat} (hal : Aligned e 8 src len)
    (h : Readable e src len) : Runs (absorb o D S src len) e s ((lanes o q).absorb S (bytesAt s src len)) s := by
  unfold absorb
  rw [whileGe_eq]
  refine runs_bind (a := (lanes o q).absN S (bytesAt s src len) (len / 8)) (s' := s) ?_ ?_
  · refine runs_forN_pure (len / 8) 0 (fun j => (lanes o q).absN S (bytesAt s src len) j) ?_
    intro j hj
    rw [Nat.zero_add]
    refine runs_bind (runs_load64In (hal.add (by omega) (by omega)) (h.add (by omega))) ?_
    have : bytesAt s (src + 8 * j) 8 = ((bytesAt s src len).drop (8 * j)).take 8 := by
      rw [bytesAt_drop, bytesAt_take _ _ _ _ (by omega)]
    rw [this]
    exact O.pU e s _
  · refine runs_eq (runs_tail O _ (by omega) (h.add (by omega))) ?_
    rw [Lanes.absorb, Lanes.padding, length_bytesAt, bytesAt_drop, show len - 8 * (len / 8) = len % 8 by omega]
    by_cases h0 : len % 8 > 0
    · rw [if_pos h0, if_pos (by omega)]; rfl
    · rw [if_neg h0, if_neg (by omega)]
      split <;> rfl

theorem runs_isapRk {k : Ptr} {y : Src} (i : Nat) (outlen : Nat) (hal : Aligned e 8 k 16) (hk : Readable e k 16)
    (hy : y.Ok e 16) :
    Runs (isapRk o D k (iv i) y outlen) e s (rkRes ((lanes o q).rk (bytesAt s k 16) i (y.bytes s 16)) outlen) s := by
  unfold isapRk
  refine runs_bind (runs_load64In (hal.add (by decide) (by omega)) (hk.add (by omega))) ?_
  refine runs_bind (runs_load64In (hal.add (by decide) (by omega)) (hk.add (by omega))) ?_
  have hinit : (⟨toWord (word o (bytesAt s (k + 0) 8)), toWord (word o (bytesAt s (k + 8) 8)), toWord (word o (iv i)), 0, 0⟩ : State) =
      ⟨(lanes o q).ld ((bytesAt s k 16).take 8), (lanes o q).ld ((bytesAt s k 16).drop 8), (lanes o q).iv i, 0, 0⟩ := by
    rw [bytesAt_drop, bytesAt_take _ _ _ _ (by omega)]
    rfl
  rw [hinit]
  refine runs_bind (O.pL e s _) ?_
  generalize hY : y.bytes s 16 = Y
  unfold Lanes.rk
  generalize hS : (lanes o q).pK ⟨(lanes o q).ld ((bytesAt s k 16).take 8), (lanes o q).ld ((bytesAt s k 16).drop 8),
    (lanes o q).iv i, 0, 0⟩ = S
  rw [show q ⟨(lanes o q).ld ((bytesAt s k 16).take 8), (lanes o q).ld ((bytesAt s k 16).drop 8),
    (lanes o q).iv i, 0, 0⟩ = S from hS]
  refine runs_bind (a := (lanes o q).rkN S Y 127) (s' := s) ?_ ?_
  · refine runs_forN_pure 127 0 (fun j => (lanes o q).rkN S Y j) ?_
    intro j hj
    rw [Nat.zero_add]
    refine runs_bind (runs_get hy (i := j / 8) (by omega)) ?_
    rw [hY, yBit_ybit, xorO_eq]
    exact O.pU e s _
  · refine runs_bind (runs_get hy (i := 15) (by omega)) ?_
    rw [hY, lastBit_ybit, xorO_eq]
    refine runs_bind (O.pL e s _) ?_
    unfold rkRes
    by_cases h : outlen > 16
    · refine runs_if_true h ?_
      rw [if_pos h]
      exact runs_pure _ _ _
    · refine runs_if_false h ?_
      rw [if_neg h]
      exact runs_pure _ _ _

theorem runs_macAbsorb {npub ad c : Ptr} {adlen clen : Nat}
    (hln : Aligned e 8 npub 16) (hla : Aligned e 8 ad adlen) (hlc : Aligned e 8 c clen)
    (hn : Readable e npub 16) (had : Readable e ad adlen) (hc : Readable e c clen) :
    Runs (macAbsorb o D npub ad adlen c clen) e s
      ((lanes o q).macSt (bytesAt s npub 16) (bytesAt s ad adlen) (bytesAt s c clen)) s := by
  unfold macAbsorb
  refine runs_bind (runs_load64In (hln.add (by decide) (by omega)) (hn.add (by omega))) ?_
  refine runs_bind (runs_load64In (hln.add (by decide) (by omega)) (hn.add (by omega))) ?_
  have hinit : (⟨toWord (word o (bytesAt s (npub + 0) 8)), toWord (word o (bytesAt s (npub + 8) 8)), toWord (word o (iv 1)), 0, 0⟩ : State) =
      ⟨(lanes o q).ld ((bytesAt s npub 16).take 8), (lanes o q).ld ((bytesAt s npub 16).drop 8), (lanes o q).iv 1, 0, 0⟩ := by
    rw [bytesAt_drop, bytesAt_take _ _ _ _ (by omega)]
    rfl
  rw [hinit]
  refine runs_bind (O.pL e s _) ?_
  refine runs_bind (runs_absorb O _ hla had) ?_
  simp only [xorE_eq]
  exact runs_absorb O _ hlc hc

theorem lanesMac : (lanes o q).cipher.MacOK .byWordsTag (isapMac o D) := by
  intro e s k npub ad adlen c clen hlk hln hla hlc _ _ hk hnp had hc
  unfold isapMac
  refine runs_bind (runs_macAbsorb O hln hla hlc hnp had hc) ?_
  show Runs _ e s ((lanes o q).st ((lanes o q).macFin (bytesAt s k 16) ((lanes o q).macSt (bytesAt s npub 16) (bytesAt s ad adlen) (bytesAt s c clen))).x0 ++
    (lanes o q).st ((lanes o q).macFin (bytesAt s k 16) ((lanes o q).macSt (bytesAt s npub 16) (bytesAt s ad adlen) (bytesAt s c clen))).x1) s
  generalize (lanes o q).macSt (bytesAt s npub 16) (bytesAt s ad adlen) (bytesAt s c clen) = S
  refine runs_bind (runs_isapRk O 2 16 hlk hk (y := .loc _) ?_) ?_
  · simp [Src.Ok]
  have hY : (Src.loc (bytes o (fromWord S.x0) ++ bytes o (fromWord S.x1))).bytes s 16 = (lanes o q).st S.x0 ++ (lanes o q).st S.x1 := by
    simp only [Src.bytes]
    rw [List.take_of_length_le (by simp)]
    rfl
  rw [hY]
  unfold Lanes.macFin
  generalize (lanes o q).rk (bytesAt s k 16) 2 ((lanes o q).st S.x0 ++ (lanes o q).st S.x1) = R
  have : (rkRes R 16) = [Opt.Bi32.w1 R.x0, Opt.Bi32.w0 R.x0, Opt.Bi32.w1 R.x1, Opt.Bi32.w0 R.x1] := rfl
  simp only [this, List.getD, List.getElem?_cons_zero, List.getElem?_cons_succ, Option.getD_some, Opt.Arm.lane_w]
  exact runs_bind (O.pL e s _) (runs_pure _ _ _)

theorem lanesEnc : (lanes o q).cipher.EncOK .byWordsTag (isapEnc o D) := by
  intro e s k npub m mlen c hlk hln hlm hlc _ hk hnp hm hc hov
  unfold isapEnc
  refine runs_bind (runs_isapRk O 3 24 hlk hk (y := .ext npub) hnp) ?_
  refine runs_bind (runs_load64In (hln.add (by decide) (by omega)) (hnp.add (by omega))) ?_
  refine runs_bind (runs_load64In (hln.add (by decide) (by omega)) (hnp.add (by omega))) ?_
  have hE : (lanes o q).encSt (bytesAt s k 16) (bytesAt s npub 16) =
      { (lanes o q).rk (bytesAt s k 16) 3 (bytesAt s npub 16) with
        x3 := toWord (word o (bytesAt s (npub + 0) 8)), x4 := toWord (word o (bytesAt s (npub + 8) 8)) } := by
    simp only [Lanes.encSt]
    rw [bytesAt_drop, bytesAt_take _ _ _ _ (by omega)]
    rfl
  have hke : ∀ R : State, rkRes R 24 = [Opt.Bi32.w1 R.x0, Opt.Bi32.w0 R.x0, Opt.Bi32.w1 R.x1,
      Opt.Bi32.w0 R.x1, Opt.Bi32.w1 R.x2, Opt.Bi32.w0 R.x2] := fun _ => rfl
  show Runs _ e s () (putBytes s c (xorStream 8 ((lanes o q).ks (bytesAt s k 16) (bytesAt s npub 16)) (bytesAt s m mlen)))
  have hks : ∀ i, (lanes o q).ks (bytesAt s k 16) (bytesAt s npub 16) i =
      bytes o (fromWord (Nat.repeat q (i + 1) ((lanes o q).encSt (bytesAt s k 16) (bytesAt s npub 16))).x0) := fun _ => rfl
  rw [hE] at hks
  rw [show (Src.ext npub).bytes s 16 = bytesAt s npub 16 from rfl]
  generalize (lanes o q).ks (bytesAt s k 16) (bytesAt s npub 16) = KS at *
  generalize (lanes o q).rk (bytesAt s k 16) 3 (bytesAt s npub 16) = R at *
  simp only [hke, List.getD, List.getElem?_cons_zero, List.getElem?_cons_succ, Option.getD_some, Opt.Arm.lane_w]
  rw [whileGe_eq]
  have hinit : (⟨R.x0, R.x1, R.x2, toWord (word o (bytesAt s (npub + 0) 8)), toWord (word o (bytesAt s (npub + 8) 8))⟩ : State) =
      { R with x3 := toWord (word o (bytesAt s (npub + 0) 8)), x4 := toWord (word o (bytesAt s (npub + 8) 8)) } := rfl
  rw [hinit]
  generalize ({ R with x3 := toWord (word o (bytesAt s (npub + 0) 8)), x4 := toWord (word o (bytesAt s (npub + 8) 8)) } : State) = I at *
  have hkl : ∀ i, (KS i).length = 8 := fun i => by rw [hks]; simp
  refine runs_bind (runs_streamBlocks (by decide) hkl (mlen / 8) (by omega) (fun j => Nat.repeat q j I) hov ?_) ?_
  · intro j hj st
    have hj' : 8 * j + 8 ≤ mlen := by omega
    refine runs_bind (O.pU e _ _) ?_
    refine runs_bind (runs_load64In (hlm.add (Nat.mul_mod_right 8 j) hj') (hm.add hj')) ?_
    refine runs_bind (a := ()) (runs_store64In (hlc.add (Nat.mul_mod_right 8 j) hj') (hc.add hj')) (runs_eq2 (runs_pure _ _ _) rfl ?_)
    rw [bytes_xor_word _ _ (by simp), hks]
    rfl
  · unfold encTail
    by_cases h0 : mlen % 8 > 0
    · have hl := stream_rest (by decide) hkl s hov (n := mlen / 8) (w := mlen % 8) (by omega) (by omega) _ rfl
      refine runs_ifThen_true h0 ?_
      rw [← hl]
      refine runs_bind (O.pL e _ _) ?_
      refine runs_xorLoop _ (OverlapOK.add hov (by omega)) (hm.add (by omega)) (hc.add (by omega)) ?_ ?_
      · simp [hkl]; omega
      · intro i hi
        rw [hks, List.getD, List.getElem?_take, if_pos hi]
        exact (getD_bytes o _ (by omega)).symm
    · refine runs_eq2 (runs_ifThen_false h0) rfl ?_
      exact stream_none s (by omega)

/-- The code computes these functions. -/
theorem lanesImpl : (lanes o q).cipher.Impl .byWordsTag (impl o D) where
  ok := Lanes.cipher_ok _ fun _ => length_bytes ..
  mac := lanesMac O
  enc := lanesEnc O
  tag := rfl
  dvd := ⟨2, rfl⟩

omit O

/-- The permutation of both versions. -/
def q12 (S : State) : State := Opt.seqRounds Opt.Bi32.round (Opt.Bi32.k12 ++ Opt.Bi32.k6 ++ Opt.Bi32.k1) S

theorem px_q12 {round : State → BitVec 32 → BitVec 32 → State} (h : RoundOK round) (e : Env) (s : St) (S : State) :
    Runs (px round 12 S) e s (q12 S) s := by
  unfold Opt32.px
  refine runs_eq (runs_forN_pure 12 0 (fun j => Opt.seqRounds Opt.Bi32.round ((Opt.Bi32.k12 ++ Opt.Bi32.k6 ++ Opt.Bi32.k1).take j) S) ?_)
    rfl
  intro j hj
  rw [Nat.zero_add]
  refine Opt.runs_pure_eq ?_
  rw [h]
  have hc : ∀ j : Fin 12, Opt.Bi32.lane (rcE.getD j.val 0) (rcO.getD j.val 0) = (Opt.Bi32.k12 ++ Opt.Bi32.k6 ++ Opt.Bi32.k1)[j.val]'j.isLt := by
    decide +kernel
  rw [hc ⟨j, hj⟩, List.take_succ_eq_append_getElem (show j < (Opt.Bi32.k12 ++ Opt.Bi32.k6 ++ Opt.Bi32.k1).length from hj), Opt.seqRounds_append]
  rfl

theorem pureOK : PureOK prims q12 := ⟨px_q12 roundOK, px_q12 roundOK⟩

theorem p12Arm_q12 (S : State) : p12Arm S = q12 S := by
  simp only [p12Arm, q12, Opt.seqRounds, List.foldl_cons, List.foldl_nil, roundArmOK _ _ _]
  rfl

theorem pureOKArm : PureOK primsArm q12 := ⟨px_q12 roundArmOK, fun _ _ S => Opt.runs_pure_eq (p12Arm_q12 S)⟩

end Opt32.Ord
end Model.A128
