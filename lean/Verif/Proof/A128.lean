import Verif.Model.A128
import Verif.Proof.AsconArm
/-!
# The optimized versions of ISAP-A-128 compute the specification
-/

namespace Model.A128
open C Spec Spec.Ascon
open Opt (rep)

variable {e : Env} {s : St}

theorem isAscon : IsAscon p isapA128 := ⟨rfl, rfl, rfl⟩

theorem iv_eq (i : Nat) : iv i = isapA128.iv i := rfl

theorem yBit_eq (y : Byte) (i : Nat) : yBit y i = Params.bitByte (y.getLsbD (7 - i % 8)) := by
  have : ∀ j : Fin 8, ∀ y : Byte, ((y >>> (7 - j.val)) &&& 1) <<< 7 = Params.bitByte (y.getLsbD (7 - j.val)) := by
    decide +kernel
  exact this ⟨i % 8, Nat.mod_lt _ (by decide)⟩ y

theorem lastBit (y : Byte) : (y &&& 1) <<< 7 = Params.bitByte (y.getLsbD 0) := by
  revert y; decide +kernel

theorem yBit_ybit (Y : List Byte) (i : Nat) : yBit (Y.getD (i / 8) 0) i = Params.bitByte (ybit Y i) := yBit_eq _ _

theorem lastBit_ybit (Y : List Byte) : (Y.getD 15 0 &&& 1) <<< 7 = Params.bitByte (ybit Y 127) := lastBit _

/-! ## opt_64 -/

namespace Opt64

theorem rotr_eq (x : BitVec 64) (n : Nat) (h : n < 64) : rotr x n = x.rotateRight n := Opt.Opt64.ror_eq x n h

theorem u64big_eq (x : BitVec 64) : u64big x = Opt.u64big x := by
  rw [Opt.u64big_eq]
  refine Bits.or_ext (f := u64big) (g := Bits.perm 64 _) ?_ (Bits.perm_or _) (by decide +kernel) (by decide +kernel) x
  intro x y
  have h : ∀ n, rotr (x ||| y) n = rotr x n ||| rotr y n := by
    intro n
    simp only [rotr, BitVec.ushiftRight_or_distrib, BitVec.shiftLeft_or_distrib]
    ac_rfl
  apply BitVec.eq_of_getLsbD_eq; intro i hi
  simp only [u64big, h, BitVec.getLsbD_or, BitVec.getLsbD_and, Bool.and_or_distrib_right]
  ac_rfl

theorem u64big_le64 (B : List Byte) : u64big (le64 B) = ofBe64 B := by rw [u64big_eq, Opt.u64big_le64]
theorem toLe64_u64big (w : BitVec 64) : toLe64 (u64big w) = be64 w := by rw [u64big_eq, Opt.toLe64_u64big]
theorem u64big_u64big (w : BitVec 64) : u64big (u64big w) = w := by
  have h := u64big_le64 (toLe64 (u64big w))
  rw [le64_toLe64, toLe64_u64big, ofBe64_be64] at h
  exact h

theorem round_spec (S : State) (c : BitVec 64) : round S c = lin (sub { S with x2 := S.x2 ^^^ c }) := by
  rw [sub_eq]
  simp only [round, rotr_eq _ 39 (by omega), rotr_eq _ 1 (by omega), rotr_eq _ (6 - 1) (by omega), rotr_eq _ 10 (by omega),
    rotr_eq _ 7 (by omega), rotr_eq _ (61 - 39) (by omega), rotr_eq _ (41 - 7) (by omega),
    rotr_eq _ 19 (by omega), rotr_eq _ (28 - 19) (by omega), Opt.Opt64.rotr_rotr _ 39 (61 - 39) (by omega),
    Opt.Opt64.rotr_rotr _ 1 (6 - 1) (by omega), Opt.Opt64.rotr_rotr _ 10 (17 - 10) (by omega),
    Opt.Opt64.rotr_rotr _ 7 (41 - 7) (by omega), Opt.Opt64.rotr_rotr _ 19 (28 - 19) (by omega), lin, subSliced, sigma,
    State.mk.injEq]
  refine ⟨?_, ?_, ?_, ?_, ?_⟩
  · simp only [Nat.reduceAdd, Nat.reduceSub]; ac_rfl
  · simp only [Nat.reduceAdd, Nat.reduceSub]; ac_rfl
  · rw [Opt.Opt64.rotr_not _ _ (by omega), Opt.Opt64.rotr_not _ _ (by omega)]
    generalize ((_ : BitVec 64).rotateRight 1) = u
    generalize ((_ : BitVec 64).rotateRight _) = v
    generalize (S.x2 ^^^ c ^^^ S.x1 ^^^ ~~~S.x3 &&& (S.x4 ^^^ S.x3)) = w
    apply BitVec.eq_of_getLsbD_eq; intro i hi
    simp only [BitVec.getLsbD_not, BitVec.getLsbD_xor, hi, decide_true, Bool.true_and]
    generalize u.getLsbD i = a
    generalize v.getLsbD i = b
    generalize w.getLsbD i = d
    revert a b d; decide
  · simp only [Nat.reduceAdd, Nat.reduceSub]; ac_rfl
  · simp only [Nat.reduceAdd, Nat.reduceSub]; ac_rfl

theorem p12_eq (S : State) : p12 S = p 12 S := by
  simp only [p12, Opt.seqRounds, List.foldl_cons, List.foldl_nil, round_spec]
  rfl

/-- The configuration belongs to the parameter set. -/
structure CfgOK (D : Cfg) (q : Nat → State → State) (P : Params) : Prop where
  isAscon : IsAscon q P
  sH : P.sH = 12
  sK : P.sK = 12
  iv : ∀ i, D.iv i = P.iv i
  pH : ∀ S, D.pH S = q 12 S
  pB : ∀ S, D.pB S = q P.sB S
  pE : ∀ S, D.pE S = q P.sE S

theorem CfgOK.p12H {D : Cfg} {q : Nat → State → State} {P : Params} (O : CfgOK D q P) (S : State) : D.pH S = q P.sH S := by
  rw [O.pH, O.sH]
theorem CfgOK.p12K {D : Cfg} {q : Nat → State → State} {P : Params} (O : CfgOK D q P) (S : State) : D.pH S = q P.sK S := by
  rw [O.pH, O.sK]

theorem cfgOK (d : DataModel) : CfgOK (cfg d) p isapA128 where
  isAscon := A128.isAscon
  sH := rfl
  sK := rfl
  iv _ := rfl
  pH := p12_eq
  pB := p12_eq
  pE := p12_eq

theorem runs_padLane {src : Ptr} {rem : Nat} (hr : rem < 8) (h : Readable e src rem) :
    Runs (forN 8 0 (padByte src rem) []) e s (bytesAt s src rem ++ [0x80] ++ zeros (7 - rem)) s := by
  refine runs_eq (runs_forN_pure 8 0 (fun j => (bytesAt s src rem ++ [0x80] ++ zeros (7 - rem)).take j) ?_) ?_
  · intro j hj
    rw [Nat.zero_add]
    have hs : ∀ d, (bytesAt s src rem ++ [0x80] ++ zeros (7 - rem)).getD j 0 = d →
        (bytesAt s src rem ++ [0x80] ++ zeros (7 - rem)).take j ++ [d] =
        (bytesAt s src rem ++ [0x80] ++ zeros (7 - rem)).take (j + 1) := by
      intro d hd
      have hl : j < (bytesAt s src rem ++ [0x80] ++ zeros (7 - rem)).length := by simp [zeros]; omega
      rw [List.take_succ_eq_append_getElem hl, ← hd, List.getD, List.getElem?_eq_getElem hl, Option.getD_some]
    have hg : (bytesAt s src rem ++ [0x80] ++ zeros (7 - rem)).getD j 0 =
        if j < rem then (bytesAt s src rem).getD j 0 else if j = rem then 0x80 else 0 := by
      simp only [List.getD, List.append_assoc, List.getElem?_append, length_bytesAt]
      by_cases h1 : j < rem
      · simp only [if_pos h1]
      · simp only [if_neg h1]
        by_cases h2 : j = rem
        · subst h2; simp
        · simp only [if_neg h2, List.length_singleton, show ¬ j - rem < 1 by omega, if_false, zeros]
          rw [List.getElem?_replicate]
          split <;> rfl
    unfold padByte
    by_cases h1 : j < rem
    · refine runs_if_true h1 ?_
      refine runs_bind (runs_load8_at h h1) (Opt.runs_pure_eq (hs _ ?_))
      rw [hg, if_pos h1]
    · refine runs_if_false h1 ?_
      by_cases h2 : j = rem
      · refine runs_if_true h2 (Opt.runs_pure_eq (hs _ ?_))
        rw [hg, if_neg h1, if_pos h2]
      · refine runs_if_false h2 (Opt.runs_pure_eq (hs _ ?_))
        rw [hg, if_neg h1, if_neg h2]
  · rw [List.take_of_length_le]
    simp [zeros]; omega

/-- The state before the last permutation in absorbing `X`. -/
def lanesW (q : Nat → State → State) (S : State) (X : List Byte) : State :=
  { absW q 12 S X (X.length / 8) with
    x0 := (absW q 12 S X (X.length / 8)).x0 ^^^ ofBe64 (X.drop (X.length / 8 * 8) ++ [0x80]) }

theorem runs_absorbLanes {pH : State → State} {q : Nat → State → State} (hp : ∀ S, pH S = q 12 S) {d : DataModel}
    (S : State) {src : Ptr} {len : Nat} (hd : len < d.ulong) (hal : Aligned e 8 src len)
    (h : Readable e src len) : Runs (absorbLanes pH d S src len) e s (lanesW q S (bytesAt s src len)) s := by
  unfold absorbLanes
  rw [Nat.mod_eq_of_lt hd, whileRem_eq]
  obtain ⟨hb1, hb2⟩ := remBlocks_le (r := 8) (by decide) len
  generalize hn : remBlocks 8 len = n at *
  have blk_eq : ∀ j, 8 * j + 8 ≤ len → bytesAt s (src + 8 * j) 8 = blk 8 (bytesAt s src len) j := by
    intro j hj
    rw [blk, bytesAt_drop, bytesAt_take _ _ _ _ (by omega), Nat.mul_comm]
  refine runs_bind (a := absW q 12 S (bytesAt s src len) n) (s' := s) ?_ ?_
  · refine runs_forN_pure n 0 (fun j => absW q 12 S (bytesAt s src len) j) ?_
    intro j hj
    rw [Nat.zero_add]
    refine runs_bind (runs_load64 (hal.add (by omega) (by omega)) (h.add (by omega))) ?_
    rw [u64big_le64, blk_eq _ (by omega), hp]
    exact runs_pure _ _ _
  · by_cases h8 : len - 8 * n = 8
    · refine runs_if_true h8 ?_
      simp only [Nat.zero_add]
      refine runs_bind (runs_load64 (hal.add (by omega) (by omega)) (h.add (by omega))) ?_
      rw [u64big_le64, blk_eq _ (by omega), hp]
      refine Opt.runs_pure_eq ?_
      rw [lanesW, length_bytesAt, show len / 8 = n + 1 by omega, List.drop_of_length_le (by simp; omega), List.nil_append,
        ofBe64_single]
      rfl
    · refine runs_if_false h8 ?_
      simp only [Nat.zero_add]
      refine runs_bind (runs_padLane (by omega) (h.add (by omega))) ?_
      refine Opt.runs_pure_eq ?_
      rw [u64big_le64, ofBe64_append_zeros, lanesW, length_bytesAt, show len / 8 = n by omega, bytesAt_drop,
        Nat.mul_comm]

theorem runs_absorbMac {pH : State → State} {q : Nat → State → State} (hp : ∀ S, pH S = q 12 S) {d : DataModel}
    (S : State) {src : Ptr} {len : Nat} (hd : len < d.ulong) (hal : Aligned e 8 src len)
    (h : Readable e src len) : Runs (absorbMac pH d S src len) e s (absorbW q 12 S (bytesAt s src len)) s := by
  refine runs_bind (runs_absorbLanes hp S hd hal h) ?_
  rw [hp]
  exact runs_pure _ _ _

/-- Result of `isap_rk` in the output array. -/
def rkRes (out R : State) (outlen : Nat) : State :=
  if outlen = 24 then { out with x0 := u64big R.x0, x1 := u64big R.x1, x2 := u64big R.x2 }
  else { out with x0 := u64big R.x0, x1 := u64big R.x1 }

variable {D : Cfg} {q : Nat → State → State} {P : Params} (O : CfgOK D q P)
include O

theorem runs_isapRk {k : Ptr} {y : Src} (i : Nat) (out : State) (outlen : Nat)
    (hal : Aligned e 8 k 16) (hk : Readable e k 16) (hy : y.Ok e 16) :
    Runs (isapRk D k (D.iv i) y out outlen) e s
      (rkRes out (rkW q P (bytesAt s k 16) (P.iv i) (y.bytes s 16)) outlen) s := by
  unfold isapRk
  refine runs_bind (runs_load64 (hal.add (by decide) (by omega)) (hk.add (by omega))) ?_
  refine runs_bind (runs_load64 (hal.add (by decide) (by omega)) (hk.add (by omega))) ?_
  rw [u64big_le64, u64big_le64, u64big_le64]
  have hinit : (⟨(ofBe64 (bytesAt s (k + 0) 8)), (ofBe64 (bytesAt s (k + 8) 8)), (ofBe64 (D.iv i)), 0, 0⟩ : State) =
      (initW (bytesAt s k 16) (P.iv i)) := by
    simp only [initW]
    rw [bytesAt_drop, ← ofBe64_take (bytesAt s k 16), bytesAt_take _ _ _ _ (by omega)]
    rw [O.iv]
    rfl
  rw [hinit, O.p12K]
  generalize hY : y.bytes s 16 = Y
  refine runs_bind (a := rkSt q P.sB (q P.sK (initW (bytesAt s k 16) (P.iv i))) Y 127) (s' := s) ?_ ?_
  · refine runs_forN_pure 127 0 (fun j => rkSt q P.sB (q P.sK (initW (bytesAt s k 16) (P.iv i))) Y j) ?_
    intro j hj
    rw [Nat.zero_add]
    refine runs_bind (runs_get hy (i := j / 8) (by omega)) ?_
    rw [hY, O.pB, yBit_ybit]
    exact runs_pure _ _ _
  · refine runs_bind (runs_get hy (i := 15) (by omega)) ?_
    rw [hY, O.p12K, lastBit_ybit]
    unfold rkRes
    by_cases h : outlen = 24
    · refine runs_if_true h ?_
      rw [if_pos h]
      exact runs_pure _ _ _
    · refine runs_if_false h ?_
      rw [if_neg h]
      exact runs_pure _ _ _

theorem runs_macAbsorb {npub ad c : Ptr} {adlen clen : Nat} (hda : adlen < D.dm.ulong) (hdc : clen < D.dm.ulong)
    (hln : Aligned e 8 npub 16) (hla : Aligned e 8 ad adlen) (hlc : Aligned e 8 c clen)
    (hn : Readable e npub 16) (had : Readable e ad adlen) (hc : Readable e c clen) :
    Runs (macAbsorb D npub ad adlen c clen) e s
      (macSt q P (bytesAt s npub 16) (bytesAt s ad adlen) (bytesAt s c clen)) s := by
  unfold macAbsorb
  refine runs_bind (runs_load64 (hln.add (by decide) (by omega)) (hn.add (by omega))) ?_
  refine runs_bind (runs_load64 (hln.add (by decide) (by omega)) (hn.add (by omega))) ?_
  rw [u64big_le64, u64big_le64, u64big_le64]
  have hinit : (⟨(ofBe64 (bytesAt s (npub + 0) 8)), (ofBe64 (bytesAt s (npub + 8) 8)), (ofBe64 (D.iv 1)), 0, 0⟩ : State) =
      (initW (bytesAt s npub 16) (P.iv 1)) := by
    simp only [initW]
    rw [bytesAt_drop, ← ofBe64_take (bytesAt s npub 16), bytesAt_take _ _ _ _ (by omega)]
    rw [O.iv]
    rfl
  rw [hinit, O.p12H]
  refine runs_bind (runs_absorbMac O.pH _ hda hla had) ?_
  rw [macSt, O.sH]
  exact runs_absorbMac O.pH _ hdc hlc hc

theorem macOK : MacOK P ⟨8, 8, D.dm.ulong, id⟩ (isapMac D) := by
  intro e s k npub ad adlen c clen hlk hln hla hlc hda hdc hk hnp had hc _ _
  rw [O.isAscon.mac_words _ _ (by simp) (by simp)]
  unfold isapMac
  refine runs_bind (runs_macAbsorb O hda hdc hln hla hlc hnp had hc) ?_
  generalize hS : macSt q P (bytesAt s npub 16) (bytesAt s ad adlen) (bytesAt s c clen) = S
  refine runs_bind (runs_isapRk O 2 _ 16 hlk hk (y := .loc _) ?_) ?_
  · simp [Src.Ok]
  have hY : (Src.loc (toLe64 (u64big S.x0) ++ toLe64 (u64big S.x1))).bytes s 16 =
      be64 S.x0 ++ be64 S.x1 := by
    simp only [toLe64_u64big, Src.bytes]
    rw [List.take_of_length_le (by simp)]
  rw [hY]
  refine Opt.runs_pure_eq ?_
  rw [toLe64_u64big, toLe64_u64big, O.p12H]
  simp only [rkRes, Nat.reduceEqDiff, if_false, u64big_u64big, macW, hS]

theorem encOK : EncOK P ⟨8, 8, D.dm.ulong, id⟩ (isapEnc D) := by
  intro e s k npub m mlen c hlk hln hlm hlc hd hk hnp hm hc hov
  dsimp only at hlk hln hlm hlc hd
  have hr := O.isAscon.r
  unfold isapEnc
  refine runs_bind (runs_isapRk O 3 _ 24 hlk hk (y := .ext npub) hnp) ?_
  refine runs_bind (runs_load64 (hln.add (by decide) (by omega)) (hnp.add (by omega))) ?_
  refine runs_bind (runs_load64 (hln.add (by decide) (by omega)) (hnp.add (by omega))) ?_
  rw [u64big_le64, u64big_le64]
  simp only [rkRes, if_true, u64big_u64big]
  have hinit : (⟨(rkW q P (bytesAt s k 16) (P.iv 3) ((Src.ext npub).bytes s 16)).x0,
        (rkW q P (bytesAt s k 16) (P.iv 3) ((Src.ext npub).bytes s 16)).x1,
        (rkW q P (bytesAt s k 16) (P.iv 3) ((Src.ext npub).bytes s 16)).x2,
        ofBe64 (bytesAt s (npub + 0) 8), ofBe64 (bytesAt s (npub + 8) 8)⟩ : State) =
      encW q P (bytesAt s k 16) (bytesAt s npub 16) := by
    simp only [encW, Src.bytes]
    rw [bytesAt_drop, ← ofBe64_take (bytesAt s npub 16), bytesAt_take _ _ _ _ (by omega)]
    rfl
  rw [hinit, whileRem_eq, O.pE]
  have hks : ∀ i, ksBlock P (bytesAt s k 16) (bytesAt s npub 16) i =
      be64 (Nat.repeat (q P.sE) (i + 1) (encW q P (bytesAt s k 16) (bytesAt s npub 16))).x0 := by
    intro i
    rw [ksBlock, O.isAscon.encInit_words (by simp) (by simp), O.isAscon.repeat_words, O.isAscon.r]
    exact take8 _
  generalize encW q P (bytesAt s k 16) (bytesAt s npub 16) = I at *
  obtain ⟨hb1, hb2⟩ := remBlocks_le (r := 8) (by decide) mlen
  generalize remBlocks 8 mlen = n at *
  have full : ∀ j st {α : Type} {a : α} {f : CM α}, 8 * j + 8 ≤ mlen →
      (∀ st', Runs f e st' a st') →
      Runs (do
        let d ← load64 (m + 8 * (j % D.dm.ulong))
        store64 (c + 8 * (j % D.dm.ulong)) (u64big (Nat.repeat (q P.sE) (j + 1) I).x0 ^^^ d)
        f) e st a
        (putBytes st (c + 8 * j) (xorBytes (bytesAt st (m + 8 * j) 8)
          (ksBlock P (bytesAt s k 16) (bytesAt s npub 16) j))) := by
    intro j st α a f hj hf
    rw [Nat.mod_eq_of_lt (show j < D.dm.ulong by omega)]
    refine runs_bind (runs_load64 (hlm.add (Nat.mul_mod_right 8 j) hj) (hm.add hj)) ?_
    refine runs_bind (a := ()) (runs_store64 (hlc.add (Nat.mul_mod_right 8 j) hj) (hc.add hj)) (runs_eq2 (hf _) rfl ?_)
    rw [BitVec.xor_comm, toLe64_xor, toLe64_le64 (by simp), hks, toLe64_u64big]
  refine runs_bind (a := Nat.repeat (q P.sE) (n + 1) I)
    (s' := putBytes s c (P.enc (bytesAt s k 16) (bytesAt s npub 16) (bytesAt s m mlen))) ?_ (runs_pure _ _ _)
  refine runs_bind (a := Nat.repeat (q P.sE) (n + 1) I) (runs_encBlocks (P := P) O.isAscon.wf (K := bytesAt s k 16) (N := bytesAt s npub 16) (by simp) (by simp)
    n (by rw [hr]; omega) (fun j => Nat.repeat (q P.sE) (j + 1) I) hov ?_) ?_
  · intro j hj st
    have hj' : 8 * j + 8 ≤ mlen := by rw [hr] at hj; omega
    rw [hr]
    refine full j st hj' ?_
    intro st'
    rw [O.pE]
    exact runs_pure _ _ _
  · have hl := enc_rest (P := P) O.isAscon.wf (K := bytesAt s k 16) (N := bytesAt s npub 16) (by simp) (by simp) s hov
      (n := n) (w := mlen - 8 * n) (by rw [hr]; exact hb2) (by rw [hr]; omega) _ rfl
    rw [hr] at hl ⊢
    by_cases h8 : mlen - 8 * n = 8
    · refine runs_if_true h8 ?_
      rw [← hl, h8, Nat.zero_add]
      refine runs_eq2 (full n _ (by omega) fun st' => runs_pure _ _ _) rfl ?_
      rw [List.take_of_length_le (l := ksBlock _ _ _ _) (by rw [hks]; simp)]
    · refine runs_if_false h8 ?_
      rw [← hl, Nat.zero_add, Nat.mod_eq_of_lt (show 8 * n < D.dm.ulong by omega)]
      refine runs_bind (a := ()) ?_ (runs_pure _ _ _)
      simp only [BitVec.xor_comm ((toLe64 _).getD _ 0)]
      refine runs_xorLoop _ (OverlapOK.add hov (by show 8 * n + (mlen - 8 * n) ≤ mlen; omega)) (hm.add (by omega)) (hc.add (by omega)) ?_ ?_
      · rw [hks]; simp; omega
      · intro i hi
        rw [hks, toLe64_u64big]
        simp only [List.getD, List.getElem?_take, if_pos hi]

end Opt64

/-! ## opt_32 and opt_32_armv67m -/

namespace Opt32

/-- The representation of lanes. -/
abbrev φ := Opt.Bi32.φ

theorem toWord_le64 {B : List Byte} (h : B.length = 8) : toWord (le64 B) = φ (ofBe64 B) := Opt.Bi32.wordOK.toWord B h
theorem toLe64_fromWord (w : BitVec 64) : toLe64 (fromWord (φ w)) = be64 w := Opt.Bi32.wordOK.fromWord w
theorem φ_xor (a b : BitVec 64) : φ (a ^^^ b) = φ a ^^^ φ b := Opt.Bi32.wordOK.xor a b
theorem φ_zero : φ 0 = 0 := by
  have := φ_xor 0 0
  simpa using this

/-- ISAP-A-128 with the permutations `q` in place of the Ascon permutation. -/
abbrev PQ (q : Nat → State → State) : Params := { isapA128 with perm := fun n b => toBytes (q n (ofBytes b)) }

theorem isAsconQ {q : Nat → State → State} : IsAscon q (PQ q) := ⟨rfl, rfl, rfl⟩

/-- Both forms of the permutation are `q 12` (of the Ascon permutation: `q = p`). -/
structure PermOK (D : Prims) (q : Nat → State → State) : Prop where
  pL : ∀ (e : Env) (s : St) S, Runs (D.pL (rep φ S)) e s (rep φ (q 12 S)) s
  pU : ∀ (e : Env) (s : St) S, Runs (D.pU (rep φ S)) e s (rep φ (q 12 S)) s

variable {D : Prims} {q : Nat → State → State}

theorem xorO_bit (S : State) (b : Bool) : xorO (rep φ S) ((Params.bitByte b).setWidth 32 <<< 24) = rep φ (xorBit S b) := by
  have h : ∀ b, φ ((Params.bitByte b).setWidth 64 <<< 56) = Opt.Bi32.lane 0#32 ((Params.bitByte b).setWidth 32 <<< 24) := by
    intro b
    cases b
    · exact φ_zero
    · exact Opt.Bi32.wordOK.top
  simp only [xorO, xorBit, rep, φ_xor, State.mk.injEq, and_true]
  refine (Opt.Arm.eq_lane ?_ ?_).symm
  · rw [Opt.Arm.w0_xor, h, Opt.Arm.w0_lane, BitVec.xor_zero]
  · rw [Opt.Arm.w1_xor, h, Opt.Arm.w1_lane]

theorem rep_x0 (S : State) (w : BitVec 64) :
    { rep φ S with x0 := (rep φ S).x0 ^^^ φ w } = rep φ { S with x0 := S.x0 ^^^ w } := by
  simp only [rep, φ_xor]

theorem set_zeros {A : List Byte} {i n : Nat} (d : Byte) (h : A.length = i) : (A ++ zeros (n + 1)).set i d = A ++ [d] ++ zeros n := by
  rw [List.set_append, if_neg (by omega), h, Nat.sub_self, zeros, List.replicate_succ, List.set_cons_zero, List.append_assoc]
  rfl

theorem runs_tail (O : PermOK D q) (S : State) {src : Ptr} {len : Nat} (hl : len < 8) (h : Readable e src len) :
    Runs (absorbPart D (rep φ S) src len >>= fun S => absorbPad D S len) e s
      (rep φ (q 12 { S with x0 := S.x0 ^^^ ofBe64 (bytesAt s src len ++ [0x80]) })) s := by
  by_cases h0 : len > 0
  · refine runs_bind (a := rep φ (q 12 { S with x0 := S.x0 ^^^ ofBe64 (bytesAt s src len ++ [0x80]) })) (s' := s) ?_ ?_
    · unfold absorbPart
      refine runs_if_true h0 ?_
      refine runs_bind (a := bytesAt s src len ++ zeros (8 - len)) (s' := s) ?_ ?_
      · refine runs_forN_pure len 0 (fun j => bytesAt s src j ++ zeros (8 - j)) ?_
        intro j hj
        rw [Nat.zero_add]
        refine runs_bind (runs_load8_at h hj) (Opt.runs_pure_eq ?_)
        rw [show 8 - j = (8 - (j + 1)) + 1 by omega, set_zeros _ (by simp), getD_bytesAt _ _ hj, bytesAt_succ]
      · rw [show 8 - len = (7 - len) + 1 by omega, set_zeros _ (by simp)]
        show Runs (D.pL { rep φ S with x0 := (rep φ S).x0 ^^^ toWord (le64 (bytesAt s src len ++ [0x80] ++ zeros (7 - len))) }) _ _ _ _
        rw [toWord_le64 (by simp [zeros]; omega),
          ofBe64_append_zeros, rep_x0]
        exact O.pL e s _
    · exact runs_if_false (show ¬ len = 0 by omega) (runs_pure _ _ _)
  · have : len = 0 := by omega
    subst this
    refine runs_bind (a := rep φ S) (s' := s) (runs_if_false (by omega) (runs_pure _ _ _)) ?_
    refine runs_if_true rfl ?_
    have := xorO_bit S true
    rw [show (Params.bitByte true).setWidth 32 <<< 24 = (0x80000000 : BitVec 32) from rfl] at this
    rw [this, bytesAt_zero, List.nil_append, ofBe64_single]
    exact O.pL e s _

theorem runs_absorb (O : PermOK D q) (S : State) {src : Ptr} {len : Nat} (hal : Aligned e 8 src len)
    (h : Readable e src len) :
    Runs (absorb D (rep φ S) src len) e s (rep φ (absorbW q 12 S (bytesAt s src len))) s := by
  unfold absorb
  rw [whileGe_eq]
  refine runs_bind (a := rep φ (absW q 12 S (bytesAt s src len) (len / 8))) (s' := s) ?_ ?_
  · refine runs_forN_pure (len / 8) 0 (fun j => rep φ (absW q 12 S (bytesAt s src len) j)) ?_
    intro j hj
    rw [Nat.zero_add]
    refine runs_bind (runs_load64 (hal.add (by omega) (by omega)) (h.add (by omega))) ?_
    rw [toWord_le64 (by simp), rep_x0]
    have : bytesAt s (src + 8 * j) 8 = blk 8 (bytesAt s src len) j := by
      rw [blk, bytesAt_drop, bytesAt_take _ _ _ _ (by omega), Nat.mul_comm]
    rw [this]
    exact O.pU e s _
  · refine runs_eq (runs_tail O _ (by omega) (h.add (by omega))) ?_
    rw [absorbW, length_bytesAt, bytesAt_drop, show len - len / 8 * 8 = len % 8 by omega, Nat.mul_comm]

/-- The words written by `isap_rk`. -/
def rkRes (R : State) (outlen : Nat) : List (BitVec 32) :=
  if outlen > 16 then
    [Opt.Bi32.w1 R.x0, Opt.Bi32.w0 R.x0, Opt.Bi32.w1 R.x1, Opt.Bi32.w0 R.x1, Opt.Bi32.w1 R.x2, Opt.Bi32.w0 R.x2]
  else [Opt.Bi32.w1 R.x0, Opt.Bi32.w0 R.x0, Opt.Bi32.w1 R.x1, Opt.Bi32.w0 R.x1]

theorem runs_isapRk (O : PermOK D q) {k : Ptr} {y : Src} (i : Nat) (outlen : Nat)
    (hal : Aligned e 8 k 16) (hk : Readable e k 16) (hy : y.Ok e 16) :
    Runs (isapRk D k (iv i) y outlen) e s
      (rkRes (rep φ (rkW q (PQ q) (bytesAt s k 16) ((PQ q).iv i) (y.bytes s 16))) outlen) s := by
  unfold isapRk
  refine runs_bind (runs_load64 (hal.add (by decide) (by omega)) (hk.add (by omega))) ?_
  refine runs_bind (runs_load64 (hal.add (by decide) (by omega)) (hk.add (by omega))) ?_
  rw [toWord_le64 (by simp), toWord_le64 (by simp), toWord_le64 rfl]
  have hinit : (⟨φ (ofBe64 (bytesAt s (k + 0) 8)), φ (ofBe64 (bytesAt s (k + 8) 8)), φ (ofBe64 (iv i)), 0, 0⟩ : State) =
      rep φ (initW (bytesAt s k 16) ((PQ q).iv i)) := by
    simp only [rep, initW, φ_zero]
    rw [bytesAt_drop, ← ofBe64_take (bytesAt s k 16), bytesAt_take _ _ _ _ (by omega)]
    rfl
  rw [hinit]
  refine runs_bind (O.pL e s _) ?_
  generalize hY : y.bytes s 16 = Y
  refine runs_bind (a := rep φ (rkSt q 12 (q 12 (initW (bytesAt s k 16) ((PQ q).iv i))) Y 127)) (s' := s) ?_ ?_
  · refine runs_forN_pure 127 0 (fun j => rep φ (rkSt q 12 (q 12 (initW (bytesAt s k 16) ((PQ q).iv i))) Y j)) ?_
    intro j hj
    rw [Nat.zero_add]
    refine runs_bind (runs_get hy (i := j / 8) (by omega)) ?_
    rw [hY, yBit_ybit, xorO_bit]
    exact O.pU e s _
  · refine runs_bind (runs_get hy (i := 15) (by omega)) ?_
    rw [hY, lastBit_ybit, xorO_bit]
    refine runs_bind (O.pL e s _) ?_
    unfold rkRes
    by_cases h : outlen > 16
    · refine runs_if_true h ?_
      rw [if_pos h]
      exact runs_pure _ _ _
    · refine runs_if_false h ?_
      rw [if_neg h]
      exact runs_pure _ _ _

theorem runs_macAbsorb (O : PermOK D q) {npub ad c : Ptr} {adlen clen : Nat}
    (hln : Aligned e 8 npub 16) (hla : Aligned e 8 ad adlen) (hlc : Aligned e 8 c clen)
    (hn : Readable e npub 16) (had : Readable e ad adlen) (hc : Readable e c clen) :
    Runs (macAbsorb D npub ad adlen c clen) e s
      (rep φ (macSt q (PQ q) (bytesAt s npub 16) (bytesAt s ad adlen) (bytesAt s c clen))) s := by
  unfold macAbsorb
  refine runs_bind (runs_load64 (hln.add (by decide) (by omega)) (hn.add (by omega))) ?_
  refine runs_bind (runs_load64 (hln.add (by decide) (by omega)) (hn.add (by omega))) ?_
  rw [toWord_le64 (by simp), toWord_le64 (by simp), toWord_le64 rfl]
  have hinit : (⟨φ (ofBe64 (bytesAt s (npub + 0) 8)), φ (ofBe64 (bytesAt s (npub + 8) 8)), φ (ofBe64 (iv 1)), 0, 0⟩ : State) =
      rep φ (initW (bytesAt s npub 16) ((PQ q).iv 1)) := by
    simp only [rep, initW, φ_zero]
    rw [bytesAt_drop, ← ofBe64_take (bytesAt s npub 16), bytesAt_take _ _ _ _ (by omega)]
    rfl
  rw [hinit]
  refine runs_bind (O.pL e s _) ?_
  refine runs_bind (runs_absorb O _ hla had) ?_
  have hx4 : ∀ S1 : State, ({ rep φ S1 with
      x4 := Opt.Bi32.lane (Opt.Bi32.w0 (rep φ S1).x4 ^^^ 1) (Opt.Bi32.w1 (rep φ S1).x4) } : State) =
      rep φ { S1 with x4 := S1.x4 ^^^ 1 } := by
    intro S1
    simp only [rep, φ_xor, State.mk.injEq, true_and]
    refine (Opt.Arm.eq_lane ?_ ?_).symm
    · rw [Opt.Arm.w0_xor, show φ 1 = 1 from Opt.Bi32.wordOK.one]; rfl
    · rw [Opt.Arm.w1_xor, show φ 1 = 1 from Opt.Bi32.wordOK.one, show Opt.Bi32.w1 1 = 0#32 from rfl, BitVec.xor_zero]
  show Runs (absorb D _ c clen) _ _ _ _
  rw [hx4]
  exact runs_absorb O _ hlc hc

theorem macOK (O : PermOK D q) : MacOK (PQ q) .byWordsTag (isapMac D) := by
  intro e s k npub ad adlen c clen hlk hln hla hlc _ _ hk hnp had hc _ _
  rw [isAsconQ.mac_words _ _ (by simp) (by simp)]
  unfold isapMac
  refine runs_bind (runs_macAbsorb O hln hla hlc hnp had hc) ?_
  generalize hS : macSt q (PQ q) (bytesAt s npub 16) (bytesAt s ad adlen) (bytesAt s c clen) = S
  refine runs_bind (runs_isapRk O 2 16 hlk hk (y := .loc _) ?_) ?_
  · simp [Src.Ok]
  have hY : (Src.loc (toLe64 (fromWord (rep φ S).x0) ++ toLe64 (fromWord (rep φ S).x1))).bytes s 16 =
      be64 S.x0 ++ be64 S.x1 := by
    simp only [rep, toLe64_fromWord, Src.bytes]
    rw [List.take_of_length_le (by simp)]
  rw [hY]
  have hM : macW q (PQ q) (bytesAt s k 16) (bytesAt s npub 16) (bytesAt s ad adlen) (bytesAt s c clen) =
      q 12 { S with
        x0 := (rkW q (PQ q) (bytesAt s k 16) ((PQ q).iv 2) (be64 S.x0 ++ be64 S.x1)).x0
        x1 := (rkW q (PQ q) (bytesAt s k 16) ((PQ q).iv 2) (be64 S.x0 ++ be64 S.x1)).x1 } := by
    rw [macW, hS]; rfl
  rw [hM]
  generalize rkW q (PQ q) (bytesAt s k 16) ((PQ q).iv 2) (be64 S.x0 ++ be64 S.x1) = R
  refine runs_bind (a := rep φ (q 12 { S with x0 := R.x0, x1 := R.x1 })) (s' := s) ?_ ?_
  · have : (rkRes (rep φ R) 16) =
        [Opt.Bi32.w1 (φ R.x0), Opt.Bi32.w0 (φ R.x0), Opt.Bi32.w1 (φ R.x1), Opt.Bi32.w0 (φ R.x1)] := rfl
    simp only [this, List.getD, List.getElem?_cons_zero, List.getElem?_cons_succ, Option.getD_some, Opt.Arm.lane_w]
    exact O.pL e s { S with x0 := _, x1 := _ }
  · refine Opt.runs_pure_eq ?_
    simp only [rep, toLe64_fromWord]

theorem encOK (O : PermOK D q) : EncOK (PQ q) .byWordsTag (isapEnc D) := by
  intro e s k npub m mlen c hlk hln hlm hlc _ hk hnp hm hc hov
  unfold isapEnc
  refine runs_bind (runs_isapRk O 3 24 hlk hk (y := .ext npub) hnp) ?_
  refine runs_bind (runs_load64 (hln.add (by decide) (by omega)) (hnp.add (by omega))) ?_
  refine runs_bind (runs_load64 (hln.add (by decide) (by omega)) (hnp.add (by omega))) ?_
  rw [toWord_le64 (by simp), toWord_le64 (by simp)]
  have hE : encW q (PQ q) (bytesAt s k 16) (bytesAt s npub 16) =
      { rkW q (PQ q) (bytesAt s k 16) ((PQ q).iv 3) (bytesAt s npub 16) with
        x3 := ofBe64 (bytesAt s (npub + 0) 8), x4 := ofBe64 (bytesAt s (npub + 8) 8) } := by
    simp only [encW]
    rw [bytesAt_drop, ← ofBe64_take (bytesAt s npub 16), bytesAt_take _ _ _ _ (by omega)]
    rfl
  have hke : ∀ R : State, rkRes (rep φ R) 24 = [Opt.Bi32.w1 (φ R.x0), Opt.Bi32.w0 (φ R.x0), Opt.Bi32.w1 (φ R.x1),
      Opt.Bi32.w0 (φ R.x1), Opt.Bi32.w1 (φ R.x2), Opt.Bi32.w0 (φ R.x2)] := fun _ => rfl
  have hks : ∀ i, ksBlock (PQ q) (bytesAt s k 16) (bytesAt s npub 16) i =
      be64 (Nat.repeat (q 12) (i + 1) (encW q (PQ q) (bytesAt s k 16) (bytesAt s npub 16))).x0 := by
    intro i
    rw [ksBlock, isAsconQ.encInit_words (by simp) (by simp), isAsconQ.repeat_words]
    exact take8 _
  rw [hE] at hks
  rw [show (Src.ext npub).bytes s 16 = bytesAt s npub 16 from rfl]
  generalize rkW q (PQ q) (bytesAt s k 16) ((PQ q).iv 3) (bytesAt s npub 16) = R at *
  simp only [hke, List.getD, List.getElem?_cons_zero, List.getElem?_cons_succ, Option.getD_some, Opt.Arm.lane_w]
  have hinit : (⟨φ R.x0, φ R.x1, φ R.x2, φ (ofBe64 (bytesAt s (npub + 0) 8)), φ (ofBe64 (bytesAt s (npub + 8) 8))⟩ : State) =
      rep φ { R with x3 := ofBe64 (bytesAt s (npub + 0) 8), x4 := ofBe64 (bytesAt s (npub + 8) 8) } := rfl
  rw [hinit, whileGe_eq]
  generalize ({ R with x3 := ofBe64 (bytesAt s (npub + 0) 8), x4 := ofBe64 (bytesAt s (npub + 8) 8) } : State) = I at *
  refine runs_bind (runs_encLoop (P := (PQ q)) isAsconQ.wf (K := bytesAt s k 16) (N := bytesAt s npub 16) (by simp) (by simp)
    (fun j => rep φ (Nat.repeat (q 12) j I)) hov ?_) ?_
  · intro j hj st
    have hj' : 8 * j + 8 ≤ mlen := by have : (j + 1) * 8 ≤ mlen := hj; omega
    refine runs_bind (O.pU e _ _) ?_
    refine runs_bind (runs_load64 (hlm.add (Nat.mul_mod_right 8 j) hj') (hm.add hj')) ?_
    refine runs_bind (a := ()) (runs_store64 (hlc.add (Nat.mul_mod_right 8 j) hj') (hc.add hj')) (runs_eq2 (runs_pure _ _ _) rfl ?_)
    rw [toLe64_xor, toLe64_le64 (by simp), hks]
    show putBytes _ _ (xorBytes _ (toLe64 (fromWord (φ _)))) = _
    rw [toLe64_fromWord]
    rfl
  · have hl := enc_last (P := (PQ q)) isAsconQ.wf (K := bytesAt s k 16) (N := bytesAt s npub 16) (by simp) (by simp) s hov _ rfl
    unfold encTail
    by_cases h0 : mlen % 8 > 0
    · refine runs_ifThen_true h0 ?_
      rw [← hl]
      refine runs_bind (O.pL e _ _) ?_
      refine runs_xorLoop _ (OverlapOK.add hov (by show 8 * (mlen / 8) + mlen % 8 ≤ mlen; omega)) (hm.add (by omega)) (hc.add (by omega)) ?_ ?_
      · rw [hks]; show (List.take (mlen % 8) _).length = mlen % 8
        simp; omega
      · intro i hi
        rw [hks]
        show Opt.byteOf (fromWord (φ _)) i = (List.take (mlen % 8) _).getD i 0
        have := congrArg (fun l => l.getD i 0) (toLe64_fromWord (Nat.repeat (q 12) (mlen / 8 + 1) I).x0)
        rw [getD_toLe64 _ (by omega)] at this
        rw [Opt.byteOf]
        refine this.trans ?_
        rw [List.getD, List.getD, List.getElem?_take, if_pos hi]
        rfl
    · refine runs_eq2 (runs_ifThen_false h0) rfl ?_
      exact enc_none s (by show mlen % 8 = 0; omega)

/-! ### The permutation -/

/-- Round constant `r` as a lane. -/
def rcLane (r : Nat) : BitVec 64 := Opt.Bi32.lane (rcE.getD r 0) (rcO.getD r 0)

/-- What a round function with separate constants must do. -/
def RoundOK (round : State → BitVec 32 → BitVec 32 → State) : Prop :=
  ∀ S ce co, round S ce co = Opt.Bi32.round S (Opt.Bi32.lane ce co)

theorem RoundOK.px {round : State → BitVec 32 → BitVec 32 → State} (h : RoundOK round) (S : State) :
    Runs (px round 12 (rep φ S)) e s (rep φ (p 12 S)) s := by
  unfold Opt32.px
  refine runs_eq (runs_forN_pure 12 0 (fun j => Opt.seqRounds Opt.Bi32.round ((Opt.Bi32.k12 ++ Opt.Bi32.k6 ++ Opt.Bi32.k1).take j) (rep φ S)) ?_)
    (Opt.Bi32.consts.run12 S)
  intro j hj
  rw [Nat.zero_add]
  refine Opt.runs_pure_eq ?_
  rw [h]
  have hc : ∀ j : Fin 12, Opt.Bi32.lane (rcE.getD j.val 0) (rcO.getD j.val 0) = (Opt.Bi32.k12 ++ Opt.Bi32.k6 ++ Opt.Bi32.k1)[j.val]'j.isLt := by
    decide +kernel
  rw [hc ⟨j, hj⟩, List.take_succ_eq_append_getElem (show j < (Opt.Bi32.k12 ++ Opt.Bi32.k6 ++ Opt.Bi32.k1).length from hj), Opt.seqRounds_append]
  rfl

theorem rotr32_eq (x : BitVec 32) {n : Nat} (h : n < 32) : rotr32 x n = x.rotateRight n := by
  rw [BitVec.rotateRight_def, Nat.mod_eq_of_lt h]; rfl

theorem roundOK : RoundOK round := by
  intro S ce co
  rw [Opt.Arm.round_words]
  simp only [round, linear, nonlinear, Opt.Arm.lin, Opt.Arm.sbE, Opt.Arm.sbO, Opt.Arm.sb, Opt.Arm.w0_lane, Opt.Arm.w1_lane,
    rotr32_eq _ (show 4 < 32 by omega), rotr32_eq _ (show 5 < 32 by omega), rotr32_eq _ (show 11 < 32 by omega),
    rotr32_eq _ (show 2 < 32 by omega), rotr32_eq _ (show 3 < 32 by omega), rotr32_eq _ (show 17 < 32 by omega),
    rotr32_eq _ (show 9 < 32 by omega), rotr32_eq _ (show 10 < 32 by omega), rotr32_eq _ (show 19 < 32 by omega),
    rotr32_eq _ (show 20 < 32 by omega), rotr32_eq _ (show 1 < 32 by omega)]

theorem permOK : PermOK prims p := ⟨fun _ _ S => roundOK.px S, fun _ _ S => roundOK.px S⟩

/-- The registers after the S-box instructions. -/
theorem exec1 (f : Opt.Arm.Reg → BitVec 32) :
    let g := C.Arm.exec prog1 f
    let e := Opt.Arm.sb (f .x0e) (f .x1e) (f .x2e) (f .x3e) (f .x4e) 0#32
    let o := Opt.Arm.sb (f .x0o) (f .x1o) (f .x2o) (f .x3o) (f .x4o) 0#32
    g .x0e = e.y0 ∧ g .x1e = e.y1 ∧ g .x2e = ~~~ e.y2 ∧ g .x3e = e.y3 ∧ g .x4e = e.y4 ∧
    g .x0o = o.y0 ∧ g .x1o = o.y1 ∧ g .x2o = ~~~ o.y2 ∧ g .x3o = o.y3 ∧ g .x4o = o.y4 := by
  unfold prog1 Opt.Arm.sb
  simp only [C.Arm.exec_cons]
  simp only [C.Arm.step]
  simp only [C.Arm.exec_nil, C.Arm.set, C.Arm.Opd.val, reduceCtorEq, if_true, if_false, BitVec.xor_zero]
  generalize f .x0e = a0
  generalize f .x1e = a1
  generalize f .x2e = a2
  generalize f .x3e = a3
  generalize f .x4e = a4
  generalize f .x0o = b0
  generalize f .x1o = b1
  generalize f .x2o = b2
  generalize f .x3o = b3
  generalize f .x4o = b4
  refine ⟨?_, ?_, ?_, ?_, ?_, ?_, ?_, ?_, ?_, ?_⟩
  · bitwise6 a0 a1 a2 a3 a4 a0
  · bitwise6 a0 a1 a2 a3 a4 a0
  · bitwise6 a0 a1 a2 a3 a4 a0
  · bitwise6 a0 a1 a2 a3 a4 a0
  · bitwise6 a0 a1 a2 a3 a4 a0
  · bitwise6 b0 b1 b2 b3 b4 b0
  · bitwise6 b0 b1 b2 b3 b4 b0
  · bitwise6 b0 b1 b2 b3 b4 b0
  · bitwise6 b0 b1 b2 b3 b4 b0
  · bitwise6 b0 b1 b2 b3 b4 b0

set_option maxRecDepth 10000 in
/-- The linear-layer instructions. -/
theorem exec2 (f : Opt.Arm.Reg → BitVec 32) : Opt.Arm.store (C.Arm.exec prog2 f) =
    ⟨Opt.Bi32.lane ((f .x0e) ^^^ ((f .x0o) ^^^ (f .x0e).rotateRight 5).rotateRight 9) ((f .x0o) ^^^ ((f .x0e) ^^^ (f .x0o).rotateRight 4).rotateRight 10),
     Opt.Bi32.lane ((f .x1e) ^^^ ((f .x1o) ^^^ (f .x1o).rotateRight 11).rotateRight 19) ((f .x1o) ^^^ ((f .x1e) ^^^ (f .x1e).rotateRight 11).rotateRight 20),
     Opt.Bi32.lane ((f .x2e) ^^^ ((f .x2o) ^^^ (f .x2e).rotateRight 3)) ((f .x2o) ^^^ ((f .x2e) ^^^ (f .x2o).rotateRight 2).rotateRight 1),
     Opt.Bi32.lane ((f .x3e) ^^^ ((f .x3e) ^^^ (f .x3o).rotateRight 3).rotateRight 5) ((f .x3o) ^^^ ((f .x3o) ^^^ (f .x3e).rotateRight 4).rotateRight 5),
     Opt.Bi32.lane ((f .x4e) ^^^ ((f .x4o) ^^^ (f .x4o).rotateRight 17).rotateRight 3) ((f .x4o) ^^^ ((f .x4e) ^^^ (f .x4e).rotateRight 17).rotateRight 4)⟩ := rfl

theorem sb_const (x0 x1 x2 x3 x4 c : BitVec 32) : Opt.Arm.sb x0 x1 (x2 ^^^ c) x3 x4 0#32 = Opt.Arm.sb x0 x1 x2 x3 x4 c := by
  simp only [Opt.Arm.sb, BitVec.xor_zero]

theorem exec_round (f : Opt.Arm.Reg → BitVec 32) : Opt.Arm.store (C.Arm.exec asm.code f) =
    Opt.Arm.lin (Opt.Arm.sb (f .x0e) (f .x1e) (f .x2e) (f .x3e) (f .x4e) 0#32)
      (Opt.Arm.sb (f .x0o) (f .x1o) (f .x2o) (f .x3o) (f .x4o) 0#32) := by
  rw [asm, C.Arm.exec_append, exec2]
  obtain ⟨h0, h1, h2, h3, h4, k0, k1, k2, k3, k4⟩ := exec1 f
  rw [h0, h1, h2, h3, h4, k0, k1, k2, k3, k4]
  rw [Opt.Arm.not_rot _ (by omega), Opt.Arm.not_rot _ (by omega), Opt.Arm.not_xor_not, Opt.Arm.not_xor_not,
    Opt.Arm.not_xor, Opt.Arm.not_xor]
  rfl

theorem roundArmOK : RoundOK roundArm := by
  intro S ce co
  rw [Opt.Arm.round_words, Opt.Arm.sbE, Opt.Arm.sbO, Opt.Arm.w0_lane, Opt.Arm.w1_lane, roundArm, exec_round]
  simp only [Opt.Arm.load, Opt.Arm.w0_lane, Opt.Arm.w1_lane, sb_const]

theorem p12Arm_eq (S : State) : p12Arm (rep φ S) = rep φ (p 12 S) := by
  rw [← Opt.Bi32.consts.run12 S]
  simp only [p12Arm, Opt.seqRounds, List.foldl_cons, List.foldl_nil, roundArmOK _ _ _]
  rfl

theorem permOKArm : PermOK primsArm p := ⟨fun _ _ S => roundArmOK.px S, fun _ _ S => Opt.runs_pure_eq (p12Arm_eq S)⟩

end Opt32

end Model.A128
