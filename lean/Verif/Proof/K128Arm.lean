import Verif.Model.K128Arm
import Verif.Proof.K128
/-!
# The ISAP-K implementations for ARM meet their contract
-/

namespace Model.K128.Arm
open C Spec KeccakRef

/-! ## One round -/

/-- A register whose high half is zero. -/
abbrev z (x : BitVec 16) : BitVec 32 := x.setWidth 32

theorem ldrh_eq (A : Arm.Lanes) (i : Nat) (h : i < 25) : ldrh A i h = z A[i] := rfl

theorem uxth_eq (x : BitVec 32) : uxth x = z (x.setWidth 16) := rfl

theorem z_xor (x y : BitVec 16) : z x ^^^ z y = z (x ^^^ y) := by
  simp [z, BitVec.setWidth_xor]

theorem low_z (x : BitVec 16) : (z x).setWidth 16 = x := by simp [z]

theorem low_xor (x y : BitVec 32) : (x ^^^ y).setWidth 16 = x.setWidth 16 ^^^ y.setWidth 16 := BitVec.setWidth_xor

theorem low_and_not (x y : BitVec 32) : (x &&& ~~~ y).setWidth 16 = x.setWidth 16 &&& ~~~ (y.setWidth 16) := by
  rw [BitVec.setWidth_and, BitVec.setWidth_not (by decide)]

theorem getLsbD_append16 (x y : BitVec 16) (i : Nat) :
    (x ++ y : BitVec 32).getLsbD i = if i < 16 then y.getLsbD i else x.getLsbD (i - 16) := by
  have := BitVec.getLsbD_append (x := x) (y := y) (i := i)
  rw [this]

theorem low_append (x y : BitVec 16) : (x ++ y : BitVec 32).setWidth 16 = y := by
  apply BitVec.eq_of_getLsbD_eq
  intro i hi
  rw [BitVec.getLsbD_setWidth, getLsbD_append16]
  simp [hi]

theorem high_append (x y : BitVec 16) : (x ++ y : BitVec 32) >>> 16 = z x := by
  apply BitVec.eq_of_getLsbD_eq
  intro i hi
  rw [BitVec.getLsbD_ushiftRight, getLsbD_append16, if_neg (by omega), Nat.add_sub_cancel_left, BitVec.getLsbD_setWidth]
  simp [hi]

theorem append_xor (a b c d : BitVec 16) : (a ++ b : BitVec 32) ^^^ (c ++ d : BitVec 32) = (a ^^^ c) ++ (b ^^^ d) := by
  apply BitVec.eq_of_getLsbD_eq
  intro i hi
  rw [BitVec.getLsbD_xor, getLsbD_append16, getLsbD_append16, getLsbD_append16]
  split <;> simp

theorem getLsbD_rol16 (x : BitVec 16) {n : Nat} (hn : n < 16) (i : Nat) (hi : i < 16) :
    (rol16 x n).getLsbD i = x.getLsbD ((i + 16 - n) % 16) := by
  rw [rol16_eq _ hn, BitVec.getLsbD_rotateLeft]
  simp only [Nat.mod_eq_of_lt hn]
  by_cases h : i < n
  · simp only [h, decide_true, cond_true]
    rw [show (i + 16 - n) % 16 = 16 - n + i by omega]
  · simp only [h, decide_false, cond_false, hi, decide_true, Bool.true_and]
    rw [show (i + 16 - n) % 16 = i - n by omega]

theorem xandnot_low (a b c : BitVec 32) : ((c &&& ~~~ b) ^^^ a).setWidth 16 =
    a.setWidth 16 ^^^ (~~~ (b.setWidth 16) &&& c.setWidth 16) := by
  rw [low_xor, low_and_not, BitVec.xor_comm, BitVec.and_comm]

namespace V7

theorem xorrol_low (x d : BitVec 16) {n : Nat} (h0 : 0 < n) (hn : n < 16) :
    (xorrol (z x) (z d) n).setWidth 16 = rol16 (x ^^^ d) n := by
  unfold xorrol
  rw [z_xor]
  generalize x ^^^ d = x
  apply BitVec.eq_of_getLsbD_eq
  intro i hi
  rw [getLsbD_rol16 _ hn i hi]
  by_cases h8 : n = 8
  · subst h8
    simp only [ne_eq, not_true_eq_false, if_false, rev16, BitVec.getLsbD_setWidth, hi, decide_true, Bool.true_and,
      BitVec.getLsbD_append, BitVec.getLsbD_extractLsb', z]
    by_cases hi8 : i < 8
    · rw [show (i + 16 - 8) % 16 = 8 + i by omega]
      simp [hi8, show 8 + i < 32 by omega]
    · rw [show (i + 16 - 8) % 16 = i - 8 by omega]
      simp [hi8, show i - 8 < 8 by omega, show i - 8 < 32 by omega]
  · simp only [ne_eq, h8, not_false_eq_true, if_true, BitVec.getLsbD_setWidth, hi, decide_true, Bool.true_and,
      BitVec.getLsbD_or, BitVec.getLsbD_shiftLeft, BitVec.getLsbD_ushiftRight, z]
    by_cases hin : i < n
    · rw [show (i + 16 - n) % 16 = 16 + i - n by omega]
      simp [hin, show ¬ (16 + i < n) by omega, show 16 + i < 32 by omega, show 16 + i - n < 32 by omega]
    · have : x.getLsbD (16 + i - n) = false := BitVec.getLsbD_of_ge _ _ (by omega)
      rw [show (i + 16 - n) % 16 = i - n by omega]
      simp [hin, show i < 32 by omega, show i - n < 32 by omega, this]

theorem rolxor_eq (a b : BitVec 16) : rolxor (z a) (z b) = z (a ^^^ rol16 b 1) := by
  unfold rolxor
  rw [uxth_eq]
  congr 1
  rw [low_xor, low_xor, low_z, BitVec.xor_assoc]
  congr 1
  apply BitVec.eq_of_getLsbD_eq
  intro i hi
  rw [getLsbD_rol16 _ (by omega) i hi]
  simp only [BitVec.getLsbD_setWidth, hi, decide_true, Bool.true_and, BitVec.getLsbD_xor, BitVec.getLsbD_shiftLeft,
    BitVec.getLsbD_ushiftRight, z]
  by_cases hin : i < 1
  · obtain rfl : i = 0 := by omega
    simp
  · have : b.getLsbD (15 + i) = false := BitVec.getLsbD_of_ge _ _ (by omega)
    rw [show (i + 16 - 1) % 16 = i - 1 by omega]
    simp [hin, show i < 32 by omega, show i - 1 < 32 by omega, this]

theorem xor5D_eq (A : Arm.Lanes) (b g k m s : Nat) (rsL rsH : BitVec 32) (hb : b + 1 < 25) (hg : g + 1 < 25) (hk : k + 1 < 25)
    (hm : m + 1 < 25) (hs : s + 1 < 25) (hl : rsL.setWidth 16 = A[s]) (hh : rsH.setWidth 16 = A[s + 1]) :
    xor5D A b g k m rsL rsH hb hg hk hm =
      (z (A[b] ^^^ A[g] ^^^ A[k] ^^^ A[m] ^^^ A[s]), z (A[b + 1] ^^^ A[g + 1] ^^^ A[k + 1] ^^^ A[m + 1] ^^^ A[s + 1])) := by
  unfold xor5D
  simp only [ldr, bfi16, hl, hh, append_xor, uxth_eq, low_append, high_append]
  congr 2 <;> ac_rfl

/-- What the registers contain between two rounds. -/
structure CarryOK (A : Arm.Lanes) (q : Carry) : Prop where
  r5 : q.r5 = z A[24]
  r7 : q.r7 = z (A[4] ^^^ A[9] ^^^ A[14] ^^^ A[19] ^^^ A[24])
  r9 : q.r9.setWidth 16 = A[20]
  r10 : q.r10.setWidth 16 = A[21]
  r11 : q.r11.setWidth 16 = A[22]
  r12 : q.r12.setWidth 16 = A[23]

theorem prepTheta_eq {A : Arm.Lanes} {q : Carry} (h : CarryOK A q) :
    prepTheta A q =
      (let c0 := A[0] ^^^ A[5] ^^^ A[10] ^^^ A[15] ^^^ A[20]
       let c1 := A[1] ^^^ A[6] ^^^ A[11] ^^^ A[16] ^^^ A[21]
       let c2 := A[2] ^^^ A[7] ^^^ A[12] ^^^ A[17] ^^^ A[22]
       let c3 := A[3] ^^^ A[8] ^^^ A[13] ^^^ A[18] ^^^ A[23]
       let c4 := A[4] ^^^ A[9] ^^^ A[14] ^^^ A[19] ^^^ A[24]
       (z (c4 ^^^ rol16 c1 1), z (c0 ^^^ rol16 c2 1), z (c1 ^^^ rol16 c3 1), z (c2 ^^^ rol16 c4 1), z (c3 ^^^ rol16 c0 1))) := by
  unfold prepTheta
  rw [xor5D_eq A 0 5 10 15 20 q.r9 q.r10 _ _ _ _ (by decide) h.r9 h.r10,
    xor5D_eq A 2 7 12 17 22 q.r11 q.r12 _ _ _ _ (by decide) h.r11 h.r12, h.r7]
  simp only [rolxor_eq]

theorem chiRows_eq (rc : BitVec 16) {A : Arm.Lanes} {q : Carry} (h : q.r5 = z A[24]) (d0 d1 d2 d3 d4 : BitVec 16) :
    (chiRows rc A q (z d0) (z d1) (z d2) (z d3) (z d4)).1 =
      (let b0 := A[0] ^^^ d0
       let b1 := rol16 (A[6] ^^^ d1) 12
       let b2 := rol16 (A[12] ^^^ d2) 11
       let b3 := rol16 (A[18] ^^^ d3) 5
       let b4 := rol16 (A[24] ^^^ d4) 14
       let b5 := rol16 (A[3] ^^^ d3) 12
       let b6 := rol16 (A[9] ^^^ d4) 4
       let b7 := rol16 (A[10] ^^^ d0) 3
       let b8 := rol16 (A[16] ^^^ d1) 13
       let b9 := rol16 (A[22] ^^^ d2) 13
       let b10 := rol16 (A[1] ^^^ d1) 1
       let b11 := rol16 (A[7] ^^^ d2) 6
       let b12 := rol16 (A[13] ^^^ d3) 9
       let b13 := rol16 (A[19] ^^^ d4) 8
       let b14 := rol16 (A[20] ^^^ d0) 2
       let b15 := rol16 (A[4] ^^^ d4) 11
       let b16 := rol16 (A[5] ^^^ d0) 4
       let b17 := rol16 (A[11] ^^^ d1) 10
       let b18 := rol16 (A[17] ^^^ d2) 15
       let b19 := rol16 (A[23] ^^^ d3) 8
       let b20 := rol16 (A[2] ^^^ d2) 14
       let b21 := rol16 (A[8] ^^^ d3) 7
       let b22 := rol16 (A[14] ^^^ d4) 7
       let b23 := rol16 (A[15] ^^^ d0) 9
       let b24 := rol16 (A[21] ^^^ d1) 2
       #v[b0 ^^^ (~~~ b1 &&& b2) ^^^ rc, b1 ^^^ (~~~ b2 &&& b3), b2 ^^^ (~~~ b3 &&& b4), b3 ^^^ (~~~ b4 &&& b0), b4 ^^^ (~~~ b0 &&& b1),
     b5 ^^^ (~~~ b6 &&& b7), b6 ^^^ (~~~ b7 &&& b8), b7 ^^^ (~~~ b8 &&& b9), b8 ^^^ (~~~ b9 &&& b5), b9 ^^^ (~~~ b5 &&& b6),
     b10 ^^^ (~~~ b11 &&& b12), b11 ^^^ (~~~ b12 &&& b13), b12 ^^^ (~~~ b13 &&& b14), b13 ^^^ (~~~ b14 &&& b10), b14 ^^^ (~~~ b10 &&& b11),
     b15 ^^^ (~~~ b16 &&& b17), b16 ^^^ (~~~ b17 &&& b18), b17 ^^^ (~~~ b18 &&& b19), b18 ^^^ (~~~ b19 &&& b15), b19 ^^^ (~~~ b15 &&& b16),
     b20 ^^^ (~~~ b21 &&& b22), b21 ^^^ (~~~ b22 &&& b23), b22 ^^^ (~~~ b23 &&& b24), b23 ^^^ (~~~ b24 &&& b20), b24 ^^^ (~~~ b20 &&& b21)]) := by
  have hx : ∀ (x d : BitVec 16) (n : Nat), 0 < n → n < 16 → (xorrol (z x) (z d) n).setWidth 16 = rol16 (x ^^^ d) n :=
    fun x d n h0 hn => xorrol_low x d h0 hn
  have h1 : ∀ a b c : BitVec 32, strh (xandnot a b c) = a.setWidth 16 ^^^ (~~~ (b.setWidth 16) &&& c.setWidth 16) := xandnot_low
  have h2 : ∀ a b c : BitVec 32, strh (xandnotRC a b c rc) = a.setWidth 16 ^^^ (~~~ (b.setWidth 16) &&& c.setWidth 16) ^^^ rc := by
    intro a b c
    have e : xandnotRC a b c rc = ((c &&& ~~~ b) ^^^ a) ^^^ z rc := by
      unfold xandnotRC; simp only [z]; ac_rfl
    rw [strh, e, low_xor, xandnot_low, low_z]
  have h3 : ∀ a b c : BitVec 32, strh (c ^^^ (b &&& ~~~ a)) = c.setWidth 16 ^^^ (~~~ (a.setWidth 16) &&& b.setWidth 16) := by
    intro a b c
    rw [strh, BitVec.xor_comm, xandnot_low]
  unfold chiRows
  simp only [ldrh_eq, h, h1, h2, h3, hx, z_xor, low_z, Nat.reduceLT, Nat.succ_pos]

theorem round_fst (rc : BitVec 16) {A : Arm.Lanes} {q : Carry} (h : CarryOK A q) : (round rc A q).1 = flat rc A := by
  unfold round
  rw [prepTheta_eq h]
  simp only
  rw [chiRows_eq rc h.r5]
  rfl

theorem round_snd (rc : BitVec 16) (A : Arm.Lanes) (q : Carry) : CarryOK (round rc A q).1 (round rc A q).2 := by
  unfold round
  generalize prepTheta A q = d
  obtain ⟨r9, r10, r11, r12, lr⟩ := d
  constructor
  · rfl
  · show uxth _ = _
    rw [uxth_eq, low_xor, low_xor, low_xor, low_xor]
    rfl
  all_goals rfl

theorem rc_eq : ∀ i < 20, roundConstants.getD i 0 = Keccak.rc i ∧ Keccak.rc i ≠ 0 := by decide

theorem runs_roundOdd {e : Env} {s : St} (fuel : Nat) : ∀ (i : Nat) (B : Arm.Lanes) (q : Carry), CarryOK B q → i < 20 →
    (20 - i) % 2 = 1 → 20 - i < 2 * fuel → Runs (roundOdd fuel i B q) e s (Keccak.rounds i (20 - i) B) s := by
  induction fuel with
  | zero => intro i B q _ _ _ h; omega
  | succ fuel ih =>
    intro i B q h hi ho hf
    rw [show 20 - i = (19 - i) + 1 by omega]
    rw [Keccak.rounds]
    unfold roundOdd
    have e1 : (round (roundConstants.getD i 0) B q).1 = Keccak.round i B := by
      rw [round_fst _ h, (rc_eq i hi).1, flat_eq]
    have h1 := round_snd (roundConstants.getD i 0) B q
    simp only
    rw [e1] at h1 ⊢
    generalize (round (roundConstants.getD i 0) B q).2 = q1 at *
    by_cases h19 : i = 19
    · rw [show 19 - i = 0 by omega]
      generalize Keccak.round i B = X at *
      refine runs_if_false ?_ (runs_pure _ _ _)
      rw [h19]; decide
    · obtain ⟨e2, e3⟩ := rc_eq (i + 1) (by omega)
      simp only [e2]
      refine runs_if_true e3 ?_
      have e4 : (round (Keccak.rc (i + 1)) (Keccak.round i B) q1).1 = Keccak.round (i + 1) (Keccak.round i B) := by
        rw [round_fst _ h1, flat_eq]
      have h2 := round_snd (Keccak.rc (i + 1)) (Keccak.round i B) q1
      rw [e4] at h2 ⊢
      have := ih (i + 2) _ _ h2 (by omega) (by omega) (by omega)
      rw [show 19 - i = (20 - (i + 2)) + 1 by omega, Keccak.rounds]
      exact this

theorem carryEven_ok (A : Arm.Lanes) : CarryOK A (carryEven A) := by
  constructor
  · rfl
  · show xor5 A 4 9 14 19 (ldrh A 24) = _
    unfold xor5
    simp only [ldrh_eq, z_xor]
    congr 1; ac_rfl
  all_goals exact low_z _

theorem carryOdd_ok (A : Arm.Lanes) : CarryOK A (carryOdd A) := by
  have hr : ∀ x y : BitVec 16, uxth ((x ++ y : BitVec 32).rotateRight 16) = z x := by
    intro x y
    rw [uxth_eq]
    congr 1
    apply BitVec.eq_of_getLsbD_eq
    intro i hi
    rw [BitVec.getLsbD_setWidth, BitVec.getLsbD_rotateRight]
    simp only [Nat.reduceMod, Nat.reduceSub, hi, decide_true, cond_true, Bool.true_and, getLsbD_append16]
    rw [if_neg (by omega), Nat.add_sub_cancel_left]
  have hl : ∀ x y : BitVec 16, uxth (x ++ y : BitVec 32) = z y := fun x y => by rw [uxth_eq, low_append]
  constructor
  · rfl
  · show xor5 A 4 9 14 19 (ldrh A 24) = _
    unfold xor5
    simp only [ldrh_eq, z_xor]
    congr 1; ac_rfl
  · show (uxth (A[21] ++ A[20] : BitVec 32)).setWidth 16 = _
    rw [hl, low_z]
  · show (uxth ((A[21] ++ A[20] : BitVec 32).rotateRight 16)).setWidth 16 = _
    rw [hr, low_z]
  · show (uxth (A[23] ++ A[22] : BitVec 32)).setWidth 16 = _
    rw [hl, low_z]
  · show ((A[23] ++ A[22] : BitVec 32) >>> 16).setWidth 16 = _
    rw [high_append, low_z]

theorem runs_permute {e : Env} {s : St} {n : Nat} (h0 : 0 < n) (hn : n ≤ 20) (A : Arm.Lanes) :
    Runs (permute n A) e s (Keccak.p n A) s := by
  unfold permute
  by_cases h2 : n % 2 = 0
  · refine runs_if_true h2 ?_
    have e1 : (round (roundConstants.getD (20 - n) 0) A (carryEven A)).1 = Keccak.round (20 - n) A := by
      rw [round_fst _ (carryEven_ok A), (rc_eq _ (by omega)).1, flat_eq]
    have h1 := round_snd (roundConstants.getD (20 - n) 0) A (carryEven A)
    simp only
    rw [e1] at h1 ⊢
    have := runs_roundOdd (e := e) (s := s) 100 (20 - n + 1) _ _ h1 (by omega) (by omega) (by omega)
    rw [Keccak.p]
    obtain ⟨m, rfl⟩ : ∃ m, n = m + 1 := ⟨n - 1, by omega⟩
    rw [show 20 - (20 - (m + 1) + 1) = m by omega] at this
    rw [Keccak.rounds]
    exact this
  · refine runs_if_false h2 ?_
    have := runs_roundOdd (e := e) (s := s) 100 (20 - n) _ _ (carryOdd_ok A) (by omega) (by omega) (by omega)
    rw [show 20 - (20 - n) = n by omega] at this
    exact this

end V7

namespace V6

theorem xorrol_eq (x d : BitVec 16) {n : Nat} (hn : n < 16) : xorrol (z x) (z d) n = z (rol16 (x ^^^ d) n) := by
  unfold xorrol
  rw [z_xor]
  generalize x ^^^ d = x
  rw [uxth_eq]
  congr 1
  apply BitVec.eq_of_getLsbD_eq
  intro i hi
  rw [getLsbD_rol16 _ hn i hi]
  simp only [BitVec.getLsbD_setWidth, hi, decide_true, Bool.true_and,
      BitVec.getLsbD_or, BitVec.getLsbD_shiftLeft, BitVec.getLsbD_ushiftRight, z]
  by_cases hin : i < n
  · rw [show (i + 16 - n) % 16 = 16 - n + i by omega]
    simp [hin, show 16 - n + i < 32 by omega]
  · have : x.getLsbD (16 - n + i) = false := BitVec.getLsbD_of_ge _ _ (by omega)
    rw [show (i + 16 - n) % 16 = i - n by omega]
    simp [hin, show i < 32 by omega, show i - n < 32 by omega, this]

theorem rolxor_eq (a b : BitVec 16) : rolxor (z a) (z b) = z (a ^^^ rol16 b 1) := by
  unfold rolxor
  rw [uxth_eq]
  congr 1
  rw [low_xor, low_z, BitVec.xor_comm]
  congr 1
  apply BitVec.eq_of_getLsbD_eq
  intro i hi
  rw [getLsbD_rol16 _ (by omega) i hi, sxth, low_z]
  rw [BitVec.getLsbD_setWidth, BitVec.getLsbD_rotateRight]
  by_cases hin : i < 1
  · obtain rfl : i = 0 := by omega
    simp [BitVec.getElem_signExtend, BitVec.msb_eq_getLsbD_last]
  · rw [show (i + 16 - 1) % 16 = i - 1 by omega]
    simp [BitVec.getElem_signExtend, hin, hi, show i < 32 by omega, show i - 1 < 32 by omega, show i - 1 < 16 by omega]

theorem round_eq (rc : BitVec 16) (A : Arm.Lanes) : round rc A = flat rc A := by
  have hp : prepTheta A = (let c0 := A[0] ^^^ A[5] ^^^ A[10] ^^^ A[15] ^^^ A[20]
       let c1 := A[1] ^^^ A[6] ^^^ A[11] ^^^ A[16] ^^^ A[21]
       let c2 := A[2] ^^^ A[7] ^^^ A[12] ^^^ A[17] ^^^ A[22]
       let c3 := A[3] ^^^ A[8] ^^^ A[13] ^^^ A[18] ^^^ A[23]
       let c4 := A[4] ^^^ A[9] ^^^ A[14] ^^^ A[19] ^^^ A[24]
       (z (c4 ^^^ rol16 c1 1), z (c0 ^^^ rol16 c2 1), z (c1 ^^^ rol16 c3 1), z (c2 ^^^ rol16 c4 1), z (c3 ^^^ rol16 c0 1))) := by
    unfold prepTheta xor5
    simp only [ldrh_eq, z_xor, rolxor_eq]
  have hx : ∀ (x d : BitVec 16) (n : Nat), n < 16 → xorrol (z x) (z d) n = z (rol16 (x ^^^ d) n) :=
    fun x d n hn => xorrol_eq x d hn
  have h1 : ∀ a b c : BitVec 32, strh (xandnot a b c) = a.setWidth 16 ^^^ (~~~ (b.setWidth 16) &&& c.setWidth 16) := xandnot_low
  have h2 : ∀ a b c : BitVec 32, strh (xandnotRC a b c rc) = a.setWidth 16 ^^^ (~~~ (b.setWidth 16) &&& c.setWidth 16) ^^^ rc := by
    intro a b c
    show (((c &&& ~~~ b) ^^^ a) ^^^ z rc).setWidth 16 = _
    rw [low_xor, xandnot_low, low_z]
  have h0 : ∀ d0 d1 d2 d3 d4 : BitVec 16, chiRows rc A (z d0) (z d1) (z d2) (z d3) (z d4) =
      (V7.chiRows rc A ⟨z A[24], 0, 0, 0, 0, 0⟩ (z d0) (z d1) (z d2) (z d3) (z d4)).1 := by
    intro d0 d1 d2 d3 d4
    rw [V7.chiRows_eq rc rfl]
    unfold chiRows
    simp only [ldrh_eq, h1, h2, hx, z_xor, low_z, Nat.reduceLT]
  unfold round
  rw [hp]
  simp only
  rw [h0, V7.chiRows_eq rc rfl]
  rfl

theorem rc_eq : ∀ i < 20, roundConstants.getD i 0 = Keccak.rc i ∧ Keccak.rc i ≠ 0x00FF := by decide

theorem runs_roundOdd {e : Env} {s : St} (fuel : Nat) : ∀ (i : Nat) (B : Arm.Lanes), i < 20 →
    (20 - i) % 2 = 1 → 20 - i < 2 * fuel → Runs (roundOdd fuel i B) e s (Keccak.rounds i (20 - i) B) s := by
  induction fuel with
  | zero => intro i B _ _ h; omega
  | succ fuel ih =>
    intro i B hi ho hf
    rw [show 20 - i = (19 - i) + 1 by omega]
    rw [Keccak.rounds]
    unfold roundOdd
    simp only [round_eq, (rc_eq i hi).1, flat_eq]
    by_cases h19 : i = 19
    · rw [show 19 - i = 0 by omega]
      generalize Keccak.round i B = X at *
      refine runs_if_true ?_ (runs_pure _ _ _)
      rw [h19]; decide
    · obtain ⟨e2, e3⟩ := rc_eq (i + 1) (by omega)
      simp only [e2, flat_eq]
      refine runs_if_false e3 ?_
      have := ih (i + 2) (Keccak.round (i + 1) (Keccak.round i B)) (by omega) (by omega) (by omega)
      rw [show 19 - i = (20 - (i + 2)) + 1 by omega, Keccak.rounds]
      exact this

theorem runs_permute {e : Env} {s : St} {n : Nat} (h0 : 0 < n) (hn : n ≤ 20) (A : Arm.Lanes) :
    Runs (permute n A) e s (Keccak.p n A) s := by
  unfold permute
  by_cases h2 : n % 2 = 0
  · refine runs_if_true h2 ?_
    rw [round_eq, (rc_eq _ (by omega)).1, flat_eq]
    have := runs_roundOdd (e := e) (s := s) 100 (20 - n + 1) (Keccak.round (20 - n) A) (by omega) (by omega) (by omega)
    rw [Keccak.p]
    obtain ⟨m, rfl⟩ : ∃ m, n = m + 1 := ⟨n - 1, by omega⟩
    rw [show 20 - (20 - (m + 1) + 1) = m by omega] at this
    rw [Keccak.rounds]
    exact this
  · refine runs_if_false h2 ?_
    have := runs_roundOdd (e := e) (s := s) 100 (20 - n) A (by omega) (by omega) (by omega)
    rw [show 20 - (20 - n) = n by omega] at this
    exact this

end V6

/-! ## The mode -/

variable {e : Env} {s : St} {D : Arm.Prims} {P : Params}

/-- ARMv6-M and ARMv7-M: the message buffers are accessed by 16-bit loads and stores; lengths have 32 bits. -/
def limits : Limits := ⟨2, 1, 2 ^ 32, id⟩

/-- The primitives do what they should. -/
structure PrimsOK (D : Arm.Prims) (P : Params) : Prop where
  wf : P.Wf
  n : P.n = 50
  r : P.r = 18
  iv : ∀ i, D.iv i = P.iv i
  pH : ∀ e s S, S.length = 50 → Runs (D.perm D.sH S) e s (P.pH S) s
  pB : ∀ e s S, S.length = 50 → Runs (D.perm D.sB S) e s (P.pB S) s
  pE : ∀ e s S, S.length = 50 → Runs (D.perm D.sE S) e s (P.pE S) s
  pK : ∀ e s S, S.length = 50 → Runs (D.perm D.sK S) e s (P.pK S) s

theorem PrimsOK.len (O : PrimsOK D P) {S : List Byte} (h : S.length = 50) (n : Nat) : (P.perm n S).length = 50 := by
  have := O.wf.perm_len n S (by rw [h, O.n])
  rw [this, O.n]

theorem runs_loadsDown (n : Nat) {p : Ptr} (h : Readable e p n) : Runs (loadsDown n p) e s (bytesAt s p n) s := by
  have hl : (bytesAt s p n).length = n := by simp
  have := runs_forN_pure (e := e) (s := s) n 0 (fun j => (bytesAt s p n).drop (n - j))
    (f := fun j bs => do
      let d ← load8 (p + (n - 1 - j))
      pure (d :: bs)) (by
    intro j hj
    rw [Nat.zero_add]
    refine runs_bind (runs_load8 (by simpa using h (n - 1 - j) (by omega))) (Opt.runs_pure_eq ?_)
    rw [show n - j = (n - 1 - j) + 1 by omega, show n - (j + 1) = n - 1 - j by omega]
    rw [List.drop_eq_getElem_cons (i := n - 1 - j) (by omega), getElem_bytesAt]
    rfl)
  rw [Nat.sub_zero, Nat.sub_self, List.drop_zero, List.drop_of_length_le (by omega)] at this
  exact this

theorem xorAt_zeros_left (n : Nat) (X : List Byte) (h : X.length ≤ n) :
    xorAt (List.replicate n 0) 0 X = X ++ zeros (n - X.length) := by
  apply List.ext_getElem
  · simp [zeros]; omega
  · intro i h1 h2
    rw [getElem_xorAt]
    simp only [List.getElem_replicate, zeros, List.getElem_append]
    by_cases hi : i < X.length
    · simp [hi, List.getD]
    · simp [hi]

theorem runs_initState (O : PrimsOK D P) {p : Ptr} (i : Nat) (h : Readable e p 16) :
    Runs (initState D p i) e s (P.initState (bytesAt s p 16) (P.iv i)) s := by
  refine runs_bind (runs_loadsDown 16 h) (Opt.runs_pure_eq ?_)
  have hl : (bytesAt s p 16).length = 16 := by simp
  have := xorAt_append (List.replicate 50 0) 0 (bytesAt s p 16) (P.iv i)
  rw [hl, Nat.zero_add] at this
  rw [xorMem_eq, xorMem_eq, O.iv, this, xorAt_zeros_left _ _ (by simp [Params.iv])]
  simp [Params.initState, O.n, Params.iv]

theorem runs_isapRk (O : PrimsOK D P) {k : Ptr} {y : Src} (i outlen : Nat) (hk : Readable e k 16) (hy : y.Ok e 16) :
    Runs (isapRk D k i y outlen) e s (P.rk (bytesAt s k 16) (P.iv i) (y.bytes s 16) outlen) s := by
  have hY := Src.length_bytes (s := s) hy
  have hK : (bytesAt s k 16).length = 16 := by simp
  have hn := O.n
  rw [Params.rk_eq O.wf i outlen hK hY]
  refine runs_bind (runs_initState O i hk) ?_
  have hI := Params.length_initState O.wf i hK
  rw [hn] at hI
  refine runs_bind (O.pK _ _ _ hI) ?_
  obtain ⟨S1, h1, h2, h3⟩ := runs_forN_inv (e := e) (s := s)
    (fun n S => S.length = 50 ∧
      S = ((List.range n).foldl (fun S j => P.pB (xorAt S 0 [Params.rkByte (y.bytes s 16) j]))
      (P.pK (P.initState (bytesAt s k 16) (P.iv i))))) 127 0
    (f := fun i S => y.get (i / 8) >>= fun yb => D.perm D.sB (xorMem S 0 [((yb >>> (7 - i % 8)) &&& 1) <<< 7])) (by
      intro j _ hj S hS
      refine ⟨_, runs_bind (runs_get hy (by omega)) (O.pB _ _ _ (by rw [xorMem_eq, length_xorAt]; exact hS.1)),
        O.len (by rw [xorMem_eq, length_xorAt]; exact hS.1) _, ?_⟩
      rw [List.range_succ, List.foldl_append, xorMem_eq, ← hS.2]
      have := A128.yBit_eq ((y.bytes s 16).getD (j / 8) 0) j
      rw [A128.yBit] at this
      rw [this]
      rfl) ⟨O.len hI _, rfl⟩
  rw [Nat.zero_add] at h3
  refine runs_bind h1 (runs_bind (runs_get hy (by omega)) ?_)
  rw [A128.lastBit, xorMem_eq]
  refine runs_bind (O.pK _ _ _ (by rw [length_xorAt]; exact h2)) (Opt.runs_pure_eq ?_)
  rw [h3]

theorem runs_absorb (O : PrimsOK D P) {T : List Byte} (hT : T.length = 50) {src : Ptr} {len : Nat}
    (hal : Aligned e 2 src len) (h : Readable e src len) :
    Runs (absorb D T src len) e s (P.absorb T (blocks P.r (bytesAt s src len))) s := by
  rw [Params.absorb_blocks O.wf _ (by rw [hT, O.n]), length_bytesAt, O.r]
  generalize hX : bytesAt s src len = X
  have hXl : X.length = len := by rw [← hX]; simp
  have hlen : ∀ q, (P.absFull T X q).length = 50 := fun q => by
    rw [Params.length_absFull O.wf X (by rw [hT, O.n]), O.n]
  unfold absorb
  rw [whileGe_eq]
  refine runs_bind (a := P.absFull T X (len / 18)) (s' := s) ?_ ?_
  · refine runs_eq2 (runs_forN_pure (len / 18) 0 (fun j => P.absFull T X j) ?_) rfl rfl
    intro j hj
    rw [Nat.zero_add]
    have hj' : 18 * j + 18 ≤ len := by omega
    refine runs_bind (runs_loads (by decide) (by decide) 9 (p := src + 18 * j) (hal.add (by omega) hj') (h.add hj')) ?_
    rw [Params.absFull_succ, O.r, ← hX, ← blk_eq hj', hX, xorMem_eq]
    exact O.pH _ _ _ (by rw [length_xorAt]; exact hlen _)
  · have hm := Nat.mod_lt len (show 0 < 18 by decide)
    have hdm := Nat.div_add_mod len 18
    have hd : bytesAt s (src + 18 * (len / 18)) (len % 18) = X.drop (len / 18 * 18) := by
      rw [← hX, bytesAt_drop, Nat.mul_comm 18 (len / 18), show len - len / 18 * 18 = len % 18 by omega]
    have hrd : Readable e (src + 18 * (len / 18)) (len % 18) := h.add (by omega)
    rw [← hd]
    generalize len % 18 = r at *
    generalize src + 18 * (len / 18) = p at *
    generalize hS : P.absFull T X (len / 18) = S
    have hSl : S.length = 50 := by rw [← hS]; exact hlen _
    refine runs_bind (a := xorAt S 0 (bytesAt s p r)) (s' := s) ?_ ?_
    · have := runs_forN_pure (e := e) (s := s) r 0 (fun j => xorAt S 0 ((bytesAt s p r).take j))
        (f := fun i S => do
          let d ← load8 (p + i)
          pure (xorMem S i [d])) (by
        intro j hj
        rw [Nat.zero_add]
        refine runs_bind (runs_load8 (by simpa using hrd j hj)) (Opt.runs_pure_eq ?_)
        have hjr : j < (bytesAt s p r).length := by simpa using hj
        have := xorAt_append S 0 ((bytesAt s p r).take j) [(bytesAt s p r)[j]]
        rw [show ((bytesAt s p r).take j).length = j by simp; omega, Nat.zero_add] at this
        rw [xorMem_eq, List.take_add_one (i := j), List.getElem?_eq_getElem hjr, Option.toList_some, ← this, getElem_bytesAt]
        rfl)
      rw [List.take_zero, xorAt_nil, List.take_of_length_le (by simp)] at this
      exact this
    · rw [xorMem_eq]
      exact O.pH _ _ _ (by rw [length_xorAt, length_xorAt]; exact hSl)

theorem macOK (O : PrimsOK D P) : MacOK P limits (isapMac D) := by
  intro e s k npub ad adlen c clen ak an aa ac hla hlc hk hnp had hc _ _
  have hN : (bytesAt s npub 16).length = 16 := by simp
  have hn := O.n
  have hI := Params.length_initState O.wf 1 hN
  rw [hn] at hI
  have hla : adlen % 2 ^ 32 = adlen := Nat.mod_eq_of_lt hla
  have hlc : clen % 2 ^ 32 = clen := Nat.mod_eq_of_lt hlc
  unfold isapMac
  rw [hla, hlc]
  refine runs_bind (runs_initState O 1 hnp) (runs_bind (O.pH _ _ _ hI) ?_)
  have h0 := O.len hI P.sH
  refine runs_bind (runs_absorb O h0 aa had) ?_
  have hA := Params.length_absorb O.wf (bytesAt s ad adlen) (S := P.pH (P.initState (bytesAt s npub 16) (P.iv 1))) (by rw [hn]; exact h0)
  have hds := Params.domSep_eq O.wf hA
  rw [hn, show 50 - 1 = 49 from rfl] at hds
  rw [hn] at hA
  show Runs (absorb D (xorMem (P.absorb (P.pH (P.initState (bytesAt s npub 16) (P.iv 1))) (blocks P.r (bytesAt s ad adlen))) 49 [0x01]) c clen >>= _) e s _ s
  rw [xorMem_eq, ← hds]
  have hD : (P.domSep (P.absorb (P.pH (P.initState (bytesAt s npub 16) (P.iv 1))) (blocks P.r (bytesAt s ad adlen)))).length = 50 := by
    rw [hds, length_xorAt, hA]
  refine runs_bind (runs_absorb O hD ac hc) ?_
  have hm : P.mac (bytesAt s k 16) (bytesAt s npub 16) (bytesAt s ad adlen) (bytesAt s c clen) = P.mac (bytesAt s k 16) (bytesAt s npub 16) (bytesAt s ad adlen) (bytesAt s c clen) := rfl
  conv at hm => rhs; simp only [Params.mac, Params.ivA, Params.ivKA]
  rw [hm]
  have hT := Params.length_absorb O.wf (bytesAt s c clen) (by rw [hn]; exact hD)
  rw [hn] at hT
  generalize P.absorb (P.domSep (P.absorb (P.pH (P.initState (bytesAt s npub 16) (P.iv 1))) (blocks P.r (bytesAt s ad adlen))))
    (blocks P.r (bytesAt s c clen)) = T at *
  refine runs_bind (runs_isapRk O 2 16 hk (y := .loc (T.take 16)) (by simp [Src.Ok, hT])) ?_
  have hb : (Src.loc (T.take 16)).bytes s 16 = T.take 16 := by simp [Src.bytes, List.take_take]
  rw [hb]
  have hrl := Params.length_rk O.wf (K := bytesAt s k 16) (Y := T.take 16) 2 16 (by simp) (by simp [hT]) (by omega)
  exact runs_bind (O.pH _ _ _ (by simp [hrl, hT])) (runs_pure _ _ _)

theorem runs_encBlock {m c : Ptr} {S : List Byte} (hS : 18 ≤ S.length) (ham : Aligned e 2 m 18) (hac : Aligned e 2 c 18)
    (hm : Readable e m 18) (hc : Writable e c 18) (hov : OverlapOK c m 18) :
    Runs (encBlock m c S) e s () (putBytes s c (xorBytes (bytesAt s m 18) (S.take 18))) := by
  generalize hT : xorBytes (bytesAt s m 18) (S.take 18) = T
  have hTl : T.length = 18 := by rw [← hT, length_xorBytes]; simp; omega
  have := runs_forN (e := e) 9 0 (fun _ => ()) (fun j => putBytes s c (T.take (2 * j)))
    (f := fun j (_ : Unit) => do
      let d ← load 2 2 (m + 2 * j)
      store 2 (c + 2 * j) (List.zipWith (· ^^^ ·) d ((S.drop (2 * j)).take 2))) (by
    intro j hj
    rw [Nat.zero_add]
    refine runs_bind (runs_load (ham.add (by omega) (by omega)) (hm.add (by omega)) (by decide)) ?_
    rw [bytesAt_ahead s (bs := T.take (2 * j)) (i := 2 * j) (w := 2) hov (by simp; omega) (by omega)]
    have e1 : List.zipWith (· ^^^ ·) (bytesAt s (m + 2 * j) 2) ((S.drop (2 * j)).take 2) = (T.drop (2 * j)).take 2 := by
      rw [← hT, xorBytes, List.drop_zipWith, List.take_zipWith, bytesAt_drop, bytesAt_take _ _ _ _ (by omega),
        List.drop_take, List.take_take, Nat.min_eq_left (by omega)]
    rw [e1]
    have e2 : ((T.drop (2 * j)).take 2).length = 2 := by simp; omega
    refine runs_eq2 (runs_store (bs := (T.drop (2 * j)).take 2) ?_ ?_ (by omega)) rfl ?_
    · rw [e2]; exact hac.add (by omega) (by omega)
    · rw [e2]; exact hc.add (by omega)
    have ha := putBytes_append s c (T.take (2 * j)) ((T.drop (2 * j)).take 2)
    rw [show (T.take (2 * j)).length = 2 * j by simp; omega] at ha
    rw [ha, Nat.mul_add, List.take_add])
  simp only [Nat.mul_zero, List.take_zero, putBytes_nil] at this
  rw [List.take_of_length_le (by omega)] at this
  exact runs_bind this (runs_pure _ _ _)

theorem encOK (O : PrimsOK D P) : EncOK P limits (isapEnc D) := by
  intro e s k npub m mlen c ak an am ac hl hk hnp hm hc hov
  have hr := O.r
  have hn := O.n
  have hl : mlen % 2 ^ 32 = mlen := Nat.mod_eq_of_lt hl
  replace am : Aligned e 2 m mlen := am
  replace ac : Aligned e 2 c mlen := ac
  unfold isapEnc
  rw [hl]
  have hIl := Params.length_encInit O.wf (K := bytesAt s k 16) (N := bytesAt s npub 16) (by simp) (by simp)
  rw [hn] at hIl
  refine runs_bind (runs_isapRk O 3 34 hk (y := .ext npub) hnp) (runs_bind (runs_loadsDown 16 hnp) ?_)
  have hI : P.rk (bytesAt s k 16) (P.iv 3) ((Src.ext npub).bytes s 16) 34 ++ bytesAt s npub 16 =
      P.encInit (bytesAt s k 16) (bytesAt s npub 16) := by
    simp only [Params.encInit, Params.ivKE, hn, Src.bytes]
  simp only [hI, whileGe_eq]
  have hrep : ∀ i, (Nat.repeat P.pE i (P.encInit (bytesAt s k 16) (bytesAt s npub 16))).length = 50 := by
    intro i
    induction i with
    | zero => exact hIl
    | succ i ih => exact O.len ih _
  have loop := runs_encLoop O.wf (K := bytesAt s k 16) (N := bytesAt s npub 16) (by simp) (by simp) (e := e) (s := s)
    (m := m) (c := c) (mlen := mlen) (fun i => Nat.repeat P.pE i (P.encInit (bytesAt s k 16) (bytesAt s npub 16)))
    (body := fun i S => D.perm D.sE S >>= fun S => encBlock (m + 18 * i) (c + 18 * i) S >>= fun _ => pure S) hov (by
      intro i hi st
      rw [hr] at hi
      rw [hr, ksBlock, hr]
      refine runs_bind (O.pE _ _ _ (hrep i)) ?_
      refine runs_bind (runs_encBlock (by have := hrep (i + 1); rw [Nat.repeat] at this; omega)
        (am.add (by omega) (by omega)) (ac.add (by omega) (by omega)) (hm.add (by omega)) (hc.add (by omega))
        (OverlapOK.add hov (by omega))) (runs_pure _ _ _))
  rw [hr] at loop
  refine runs_bind loop ?_
  by_cases h0 : mlen % 18 > 0
  · refine runs_ifThen_true h0 ?_
    refine runs_bind (O.pE _ _ _ (hrep _)) ?_
    have hks : P.pE (Nat.repeat P.pE (mlen / 18) (P.encInit (bytesAt s k 16) (bytesAt s npub 16))) =
        Nat.repeat P.pE (mlen / 18 + 1) (P.encInit (bytesAt s k 16) (bytesAt s npub 16)) := rfl
    rw [hks]
    have hlen := hrep (mlen / 18 + 1)
    have hlast := enc_last O.wf (K := bytesAt s k 16) (N := bytesAt s npub 16) (by simp) (by simp) s hov _ rfl
    rw [hr, ksBlock, hr] at hlast
    generalize Nat.repeat P.pE (mlen / 18 + 1) (P.encInit (bytesAt s k 16) (bytesAt s npub 16)) = S at *
    have hmod := Nat.mod_lt mlen (show 0 < 18 by decide)
    have hdm := Nat.div_add_mod mlen 18
    refine runs_bind (runs_xorLoop ((S.take 18).take (mlen % 18)) (OverlapOK.add hov (by omega))
      (hm.add (by omega)) (hc.add (by omega)) (by simp; omega) ?_) (runs_eq2 (runs_pure _ _ _) rfl hlast)
    intro i hi
    simp [List.getD, hi, show i < 18 by omega]
  · refine runs_eq2 (runs_ifThen_false h0) rfl ?_
    have := enc_none (P := P) (K := bytesAt s k 16) (N := bytesAt s npub 16) s (m := m) (c := c) (mlen := mlen)
      (by rw [hr]; omega)
    rw [hr] at this
    exact this

/-! ## The four implementations -/

theorem runs_perm (hp : ∀ A e s, Runs (D.permute n A) e s (Keccak.p n A) s) (S : List Byte) (hS : S.length = 50) :
    Runs (D.perm n S) e s (Keccak.perm n S) s := by
  refine runs_bind (hp _ _ _) (Opt.runs_pure_eq ?_)
  rw [Opt64.words_take, KeccakRef.unwords_eq, List.take_of_length_le (by omega)]
  rfl

theorem primsK128aV7_ok : PrimsOK primsK128aV7 isapK128a where
  wf := KeccakRef.wfK128a
  n := rfl
  r := rfl
  iv _ := rfl
  pH _ _ S h := runs_perm (D := primsK128aV7) (n := 16) (fun A _ _ => V7.runs_permute (by decide) (by decide) A) S h
  pB _ _ S h := runs_perm (D := primsK128aV7) (n := 1) (fun A _ _ => V7.runs_permute (by decide) (by decide) A) S h
  pE _ _ S h := runs_perm (D := primsK128aV7) (n := 8) (fun A _ _ => V7.runs_permute (by decide) (by decide) A) S h
  pK _ _ S h := runs_perm (D := primsK128aV7) (n := 8) (fun A _ _ => V7.runs_permute (by decide) (by decide) A) S h

theorem primsK128aV6_ok : PrimsOK primsK128aV6 isapK128a where
  wf := KeccakRef.wfK128a
  n := rfl
  r := rfl
  iv _ := rfl
  pH _ _ S h := runs_perm (D := primsK128aV6) (n := 16) (fun A _ _ => V6.runs_permute (by decide) (by decide) A) S h
  pB _ _ S h := runs_perm (D := primsK128aV6) (n := 1) (fun A _ _ => V6.runs_permute (by decide) (by decide) A) S h
  pE _ _ S h := runs_perm (D := primsK128aV6) (n := 8) (fun A _ _ => V6.runs_permute (by decide) (by decide) A) S h
  pK _ _ S h := runs_perm (D := primsK128aV6) (n := 8) (fun A _ _ => V6.runs_permute (by decide) (by decide) A) S h

theorem primsK128V7_ok : PrimsOK primsK128V7 isapK128 where
  wf := KeccakRef.wfK128
  n := rfl
  r := rfl
  iv _ := rfl
  pH _ _ S h := runs_perm (D := primsK128V7) (n := 20) (fun A _ _ => V7.runs_permute (by decide) (by decide) A) S h
  pB _ _ S h := runs_perm (D := primsK128V7) (n := 12) (fun A _ _ => V7.runs_permute (by decide) (by decide) A) S h
  pE _ _ S h := runs_perm (D := primsK128V7) (n := 12) (fun A _ _ => V7.runs_permute (by decide) (by decide) A) S h
  pK _ _ S h := runs_perm (D := primsK128V7) (n := 12) (fun A _ _ => V7.runs_permute (by decide) (by decide) A) S h

theorem primsK128V6_ok : PrimsOK primsK128V6 isapK128 where
  wf := KeccakRef.wfK128
  n := rfl
  r := rfl
  iv _ := rfl
  pH _ _ S h := runs_perm (D := primsK128V6) (n := 20) (fun A _ _ => V6.runs_permute (by decide) (by decide) A) S h
  pB _ _ S h := runs_perm (D := primsK128V6) (n := 12) (fun A _ _ => V6.runs_permute (by decide) (by decide) A) S h
  pE _ _ S h := runs_perm (D := primsK128V6) (n := 12) (fun A _ _ => V6.runs_permute (by decide) (by decide) A) S h
  pK _ _ S h := runs_perm (D := primsK128V6) (n := 12) (fun A _ _ => V6.runs_permute (by decide) (by decide) A) S h

end Model.K128.Arm
