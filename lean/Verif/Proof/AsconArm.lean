import Verif.Proof.AsconOpt
import Verif.Model.AsconArm
/-!
# The assembly versions of the Ascon round
-/

namespace Model.Opt
open C Spec.Ascon

namespace Arm

/-- Five words, one of each lane. -/
structure W5 where
  (y0 y1 y2 y3 y4 : BitVec 32)

/-- The S-box layer of Ascon on one word of each lane, without the final complement of lane 2. -/
def sb (x0 x1 x2 x3 x4 c : BitVec 32) : W5 :=
  let a0 := x0 ^^^ x4
  let a4 := x4 ^^^ x3
  let a2 := x2 ^^^ c ^^^ x1
  let t0 := a0 ^^^ (~~~ x1 &&& a2)
  let t1 := x1 ^^^ (~~~ a2 &&& x3)
  let t2 := a2 ^^^ (~~~ x3 &&& a4)
  let t3 := x3 ^^^ (~~~ a4 &&& a0)
  let t4 := a4 ^^^ (~~~ a0 &&& x1)
  ⟨t0 ^^^ t4, t1 ^^^ t0, t2, t3 ^^^ t2, t4⟩

/-- S-box layer on the even words. -/
def sbE (s : State) (c : BitVec 64) : W5 :=
  sb (Bi32.w0 s.x0) (Bi32.w0 s.x1) (Bi32.w0 s.x2) (Bi32.w0 s.x3) (Bi32.w0 s.x4) (Bi32.w0 c)
/-- S-box layer on the odd words. -/
def sbO (s : State) (c : BitVec 64) : W5 :=
  sb (Bi32.w1 s.x0) (Bi32.w1 s.x1) (Bi32.w1 s.x2) (Bi32.w1 s.x3) (Bi32.w1 s.x4) (Bi32.w1 c)

/-- Linear layer on even and odd words; lane 2 is complemented at the end. -/
def lin (e o : W5) : State :=
  ⟨Bi32.lane (e.y0 ^^^ (o.y0 ^^^ e.y0.rotateRight 5).rotateRight 9) (o.y0 ^^^ (e.y0 ^^^ o.y0.rotateRight 4).rotateRight 10),
   Bi32.lane (e.y1 ^^^ (o.y1 ^^^ o.y1.rotateRight 11).rotateRight 19) (o.y1 ^^^ (e.y1 ^^^ e.y1.rotateRight 11).rotateRight 20),
   Bi32.lane (~~~ (e.y2 ^^^ (o.y2 ^^^ e.y2.rotateRight 3))) (~~~ (o.y2 ^^^ (e.y2 ^^^ o.y2.rotateRight 2).rotateRight 1)),
   Bi32.lane (e.y3 ^^^ (e.y3 ^^^ o.y3.rotateRight 3).rotateRight 5) (o.y3 ^^^ (o.y3 ^^^ e.y3.rotateRight 4).rotateRight 5),
   Bi32.lane (e.y4 ^^^ (o.y4 ^^^ o.y4.rotateRight 17).rotateRight 3) (o.y4 ^^^ (e.y4 ^^^ e.y4.rotateRight 17).rotateRight 4)⟩

theorem w0_xor (x y : BitVec 64) : Bi32.w0 (x ^^^ y) = Bi32.w0 x ^^^ Bi32.w0 y := by simp [Bi32.w0, BitVec.setWidth_xor]
theorem w1_xor (x y : BitVec 64) : Bi32.w1 (x ^^^ y) = Bi32.w1 x ^^^ Bi32.w1 y := by
  simp only [Bi32.w1, BitVec.ushiftRight_xor_distrib, BitVec.setWidth_xor]
theorem w0_and (x y : BitVec 64) : Bi32.w0 (x &&& y) = Bi32.w0 x &&& Bi32.w0 y := by simp [Bi32.w0, BitVec.setWidth_and]
theorem w1_and (x y : BitVec 64) : Bi32.w1 (x &&& y) = Bi32.w1 x &&& Bi32.w1 y := by
  simp only [Bi32.w1, BitVec.ushiftRight_and_distrib, BitVec.setWidth_and]
theorem w0_not (x : BitVec 64) : Bi32.w0 (~~~ x) = ~~~ Bi32.w0 x := by
  apply BitVec.eq_of_getLsbD_eq; intro i hi
  rw [Bi32.getLsbD_w0 _ hi, BitVec.getLsbD_not, BitVec.getLsbD_not, Bi32.getLsbD_w0 _ hi]
  simp [hi, show i < 64 by omega]
theorem w1_not (x : BitVec 64) : Bi32.w1 (~~~ x) = ~~~ Bi32.w1 x := by
  apply BitVec.eq_of_getLsbD_eq; intro i hi
  rw [Bi32.getLsbD_w1 _ hi, BitVec.getLsbD_not, BitVec.getLsbD_not, Bi32.getLsbD_w1 _ hi]
  simp [hi, show 32 + i < 64 by omega]
theorem w0_lane (a b : BitVec 32) : Bi32.w0 (Bi32.lane a b) = a := by
  apply BitVec.eq_of_getLsbD_eq; intro i hi
  rw [Bi32.getLsbD_w0 _ hi, Bi32.getLsbD_lane, if_pos hi]
theorem w1_lane (a b : BitVec 32) : Bi32.w1 (Bi32.lane a b) = b := by
  apply BitVec.eq_of_getLsbD_eq; intro i hi
  rw [Bi32.getLsbD_w1 _ hi, Bi32.getLsbD_lane, if_neg (by omega)]; congr 1; omega
theorem lane_w (x : BitVec 64) : Bi32.lane (Bi32.w0 x) (Bi32.w1 x) = x := by
  apply BitVec.eq_of_getLsbD_eq; intro i hi
  rw [Bi32.getLsbD_lane]; split
  · rw [Bi32.getLsbD_w0 _ (by omega)]
  · rw [Bi32.getLsbD_w1 _ (by omega)]; congr 1; omega

theorem eq_lane {x : BitVec 64} {a b : BitVec 32} (h0 : Bi32.w0 x = a) (h1 : Bi32.w1 x = b) : x = Bi32.lane a b := by
  rw [← h0, ← h1, lane_w]

theorem w0_ror (x : BitVec 64) (n : Nat) : Bi32.w0 (Bi32.ror x n) =
    if n % 2 ≠ 0 then Bi32.ror32 (Bi32.w1 x) ((n - 1) / 2) else Bi32.ror32 (Bi32.w0 x) (n / 2) := w0_lane _ _
theorem w1_ror (x : BitVec 64) (n : Nat) : Bi32.w1 (Bi32.ror x n) =
    if n % 2 ≠ 0 then Bi32.ror32 (Bi32.w0 x) ((n + 1) / 2) else Bi32.ror32 (Bi32.w1 x) (n / 2) := w1_lane _ _

theorem rot_zero (x : BitVec 32) : x.rotateRight 0 = x := by
  rw [← Bi32.ror32_eq x (by omega)]
  apply BitVec.eq_of_getLsbD_eq; intro i hi
  rw [Bi32.getLsbD_ror32 _ (by omega) hi]; congr 1; omega

theorem not_rot (x : BitVec 32) {n : Nat} (hn : n < 32) : (~~~ x).rotateRight n = ~~~ x.rotateRight n := by
  rw [← Bi32.ror32_eq _ hn, ← Bi32.ror32_eq _ hn]
  apply BitVec.eq_of_getLsbD_eq; intro i hi
  rw [Bi32.getLsbD_ror32 _ hn hi, BitVec.getLsbD_not, BitVec.getLsbD_not, Bi32.getLsbD_ror32 _ hn hi]
  simp [hi, show (i + n) % 32 < 32 by omega]

theorem not_xor (x y : BitVec 32) : ~~~ x ^^^ y = ~~~ (x ^^^ y) := by
  apply BitVec.eq_of_getLsbD_eq; intro i hi
  simp [hi]

theorem xor_not (x y : BitVec 32) : x ^^^ ~~~ y = ~~~ (x ^^^ y) := by
  apply BitVec.eq_of_getLsbD_eq; intro i hi
  simp [hi]

theorem not_xor_not (x y : BitVec 32) : ~~~ x ^^^ ~~~ y = x ^^^ y := by
  apply BitVec.eq_of_getLsbD_eq; intro i hi
  simp [hi]

/-- The round of bi_32 on words. -/
theorem round_words (s : State) (c : BitVec 64) : Bi32.round s c = lin (sbE s c) (sbO s c) := by
  have r : ∀ (x : BitVec 32) (n : Nat), n ∈ [0,1,2,3,4,5,9,10,11,17,19,20] → Bi32.ror32 x n = x.rotateRight n := by
    intro x n hn
    exact Bi32.ror32_eq x (by simp only [List.mem_cons, List.not_mem_nil, or_false] at hn; omega)
  obtain ⟨x0, x1, x2, x3, x4⟩ := s
  simp only [Bi32.round, Opt64.roundWith, lin, sbE, sbO, State.mk.injEq]
  refine ⟨eq_lane ?_ ?_, eq_lane ?_ ?_, eq_lane ?_ ?_, eq_lane ?_ ?_, eq_lane ?_ ?_⟩ <;>
    simp only [w0_xor, w1_xor, w0_and, w1_and, w0_not, w1_not, w0_ror, w1_ror, Nat.reduceMod, Nat.reduceSub, Nat.reduceAdd,
      Nat.reduceDiv, ne_eq, reduceIte, Nat.reduceEqDiff, not_true_eq_false, not_false_eq_true, r, List.mem_cons,
      List.not_mem_nil, or_false, or_true, rot_zero] <;> rfl

end Arm

open Arm C.Arm

/-- Close a goal between bitwise expressions in at most six words. -/
macro "bitwise6 " x0:term:max x1:term:max x2:term:max x3:term:max x4:term:max c:term:max : tactic =>
  `(tactic| (
    apply BitVec.eq_of_getLsbD_eq; intro i hi
    simp only [BitVec.getLsbD_xor, BitVec.getLsbD_and, BitVec.getLsbD_or, BitVec.getLsbD_not, hi, decide_true, Bool.true_and]
    generalize BitVec.getLsbD $x0 i = b0
    generalize BitVec.getLsbD $x1 i = b1
    generalize BitVec.getLsbD $x2 i = b2
    generalize BitVec.getLsbD $x3 i = b3
    generalize BitVec.getLsbD $x4 i = b4
    generalize BitVec.getLsbD $c i = b5
    revert b0 b1 b2 b3 b4 b5
    decide))

namespace Armv6

/-- The registers after the S-box instructions. -/
theorem exec1 (f : Reg → BitVec 32) :
    let g := exec prog1 f
    let e := sb (f .x0e) (f .x1e) (f .x2e) (f .x3e) (f .x4e) (f .ce)
    let o := sb (f .x0o) (f .x1o) (f .x2o) (f .x3o) (f .x4o) (f .co)
    g .x0e = e.y0 ∧ g .x1e = e.y1 ∧ g .x2e = ~~~ e.y2 ∧ g .x3e = e.y3 ∧ g .x4e = e.y4 ∧
    g .x0o = o.y0 ∧ g .x1o = o.y1 ∧ g .x2o = ~~~ o.y2 ∧ g .x3o = o.y3 ∧ g .x4o = o.y4 := by
  unfold prog1 sb
  simp only [exec_cons]
  simp only [step]
  simp only [exec_nil, C.Arm.set, Opd.val, reduceCtorEq, if_true, if_false]
  generalize f .ce = ce
  generalize f .co = co
  generalize f .x0e = a0
  generalize f .x1e = a1
  generalize f .x2e = a2
  generalize f .x3e = a3
  generalize f .x4e = a4
  generalize f .x0o = b0
  generalize f .x1o = b1
  generalize f .x2o = b2
  generalize f .x3o = b3
  generalize f .x4o = b4
  refine ⟨?_, ?_, ?_, ?_, ?_, ?_, ?_, ?_, ?_, ?_⟩
  · bitwise6 a0 a1 a2 a3 a4 ce
  · bitwise6 a0 a1 a2 a3 a4 ce
  · bitwise6 a0 a1 a2 a3 a4 ce
  · bitwise6 a0 a1 a2 a3 a4 ce
  · bitwise6 a0 a1 a2 a3 a4 ce
  · bitwise6 b0 b1 b2 b3 b4 co
  · bitwise6 b0 b1 b2 b3 b4 co
  · bitwise6 b0 b1 b2 b3 b4 co
  · bitwise6 b0 b1 b2 b3 b4 co
  · bitwise6 b0 b1 b2 b3 b4 co

set_option maxRecDepth 10000 in
/-- The linear-layer instructions. -/
theorem exec2 (f : Reg → BitVec 32) : store (exec prog2 f) =
    ⟨Bi32.lane ((f .x0e) ^^^ ((f .x0o) ^^^ (f .x0e).rotateRight 5).rotateRight 9) ((f .x0o) ^^^ ((f .x0e) ^^^ (f .x0o).rotateRight 4).rotateRight 10),
     Bi32.lane ((f .x1e) ^^^ ((f .x1o) ^^^ (f .x1o).rotateRight 11).rotateRight 19) ((f .x1o) ^^^ ((f .x1e) ^^^ (f .x1e).rotateRight 11).rotateRight 20),
     Bi32.lane ((f .x2e) ^^^ ((f .x2o) ^^^ (f .x2e).rotateRight 3)) ((f .x2o) ^^^ ((f .x2e) ^^^ (f .x2o).rotateRight 2).rotateRight 1),
     Bi32.lane ((f .x3e) ^^^ ((f .x3e) ^^^ (f .x3o).rotateRight 3).rotateRight 5) ((f .x3o) ^^^ ((f .x3o) ^^^ (f .x3e).rotateRight 4).rotateRight 5),
     Bi32.lane ((f .x4e) ^^^ ((f .x4o) ^^^ (f .x4o).rotateRight 17).rotateRight 3) ((f .x4o) ^^^ ((f .x4e) ^^^ (f .x4e).rotateRight 17).rotateRight 4)⟩ := rfl

/-- What the block does, whatever the temporaries hold before it. -/
theorem exec_round (f : Reg → BitVec 32) : store (exec asm.code f) =
    lin (sb (f .x0e) (f .x1e) (f .x2e) (f .x3e) (f .x4e) (f .ce))
      (sb (f .x0o) (f .x1o) (f .x2o) (f .x3o) (f .x4o) (f .co)) := by
  rw [asm, exec_append, exec2]
  obtain ⟨h0, h1, h2, h3, h4, k0, k1, k2, k3, k4⟩ := exec1 f
  rw [h0, h1, h2, h3, h4, k0, k1, k2, k3, k4]
  rw [not_rot _ (by omega), not_rot _ (by omega), not_xor_not, not_xor_not, not_xor, not_xor]
  rfl

/-- `ROUND` of bi_32_armv6 is the round of bi_32. -/
theorem round_eq : round = Bi32.round := by
  funext s c
  rw [round_words, round, block, exec_round]
  rfl

theorem repOK : RepOK prims Bi32.φ p := by rw [prims, round_eq]; exact Bi32.repOK

end Armv6

namespace Armv6m

/-- The registers after the S-box instructions. -/
theorem exec1 (f : Reg → BitVec 32) :
    let g := exec prog1 f
    let e := sb (f .x0e) (f .x1e) (f .x2e) (f .x3e) (f .x4e) (f .ce)
    let o := sb (f .x0o) (f .x1o) (f .x2o) (f .x3o) (f .x4o) (f .co)
    g .x0o = e.y0 ∧ g .x1o = e.y1 ∧ g .x2o = e.y2 ∧ g .x2e = e.y3 ∧ g .tmp2 = e.y4 ∧
    g .tmp0 = o.y0 ∧ g .x3o = o.y1 ∧ g .x4o = o.y2 ∧ g .x3e = o.y3 ∧ g .x4e = o.y4 := by
  unfold prog1 sb
  simp only [exec_cons]
  simp only [step]
  simp only [exec_nil, C.Arm.set, Opd.val, reduceCtorEq, if_true, if_false]
  generalize f .ce = ce
  generalize f .co = co
  generalize f .x0e = a0
  generalize f .x1e = a1
  generalize f .x2e = a2
  generalize f .x3e = a3
  generalize f .x4e = a4
  generalize f .x0o = b0
  generalize f .x1o = b1
  generalize f .x2o = b2
  generalize f .x3o = b3
  generalize f .x4o = b4
  refine ⟨?_, ?_, ?_, ?_, ?_, ?_, ?_, ?_, ?_, ?_⟩
  · bitwise6 a0 a1 a2 a3 a4 ce
  · bitwise6 a0 a1 a2 a3 a4 ce
  · bitwise6 a0 a1 a2 a3 a4 ce
  · bitwise6 a0 a1 a2 a3 a4 ce
  · bitwise6 a0 a1 a2 a3 a4 ce
  · bitwise6 b0 b1 b2 b3 b4 co
  · bitwise6 b0 b1 b2 b3 b4 co
  · bitwise6 b0 b1 b2 b3 b4 co
  · bitwise6 b0 b1 b2 b3 b4 co
  · bitwise6 b0 b1 b2 b3 b4 co

set_option maxRecDepth 10000 in
/-- The linear-layer instructions. -/
theorem exec2 (f : Reg → BitVec 32) : store (exec prog2 f) =
    ⟨Bi32.lane ((f .x0o) ^^^ ((f .tmp0) ^^^ (f .x0o).rotateRight 5).rotateRight 9) ((f .tmp0) ^^^ ((f .x0o) ^^^ (f .tmp0).rotateRight 4).rotateRight 10),
     Bi32.lane ((f .x1o) ^^^ ((f .x3o) ^^^ (f .x3o).rotateRight 11).rotateRight 19) ((f .x3o) ^^^ ((f .x1o) ^^^ (f .x1o).rotateRight 11).rotateRight 20),
     Bi32.lane ((f .x2o) ^^^ ((f .x4o) ^^^ (~~~ (f .x2o)).rotateRight 3)) ((f .x4o) ^^^ ((f .x2o) ^^^ (~~~ (f .x4o)).rotateRight 2).rotateRight 1),
     Bi32.lane ((f .x2e) ^^^ ((f .x2e) ^^^ (f .x3e).rotateRight 3).rotateRight 5) ((f .x3e) ^^^ ((f .x3e) ^^^ (f .x2e).rotateRight 4).rotateRight 5),
     Bi32.lane ((f .tmp2) ^^^ ((f .x4e) ^^^ (f .x4e).rotateRight 17).rotateRight 3) ((f .x4e) ^^^ ((f .tmp2) ^^^ (f .tmp2).rotateRight 17).rotateRight 4)⟩ := rfl

/-- What the block does, whatever the temporaries hold before it. -/
theorem exec_round (f : Reg → BitVec 32) : store (exec asm.code f) =
    lin (sb (f .x0e) (f .x1e) (f .x2e) (f .x3e) (f .x4e) (f .ce))
      (sb (f .x0o) (f .x1o) (f .x2o) (f .x3o) (f .x4o) (f .co)) := by
  rw [asm, exec_append, exec2]
  obtain ⟨h0, h1, h2, h3, h4, k0, k1, k2, k3, k4⟩ := exec1 f
  rw [h0, h1, h2, h3, h4, k0, k1, k2, k3, k4]
  rw [not_rot _ (by omega), not_rot _ (by omega), xor_not, xor_not, xor_not, not_rot _ (by omega), xor_not]
  rfl

/-- `ROUND` of bi_32_armv6m is the round of bi_32. -/
theorem round_eq : round = Bi32.round := by
  funext s c
  rw [round_words, round, block, exec_round]
  rfl

theorem repOK : RepOK prims Bi32.φ p := by rw [prims, round_eq]; exact Bi32.repOK
theorem repOKCompact : RepOK primsCompact Bi32.φ p := by rw [primsCompact, round_eq]; exact Bi32.repOKCompact

end Armv6m

namespace Armv7m

/-- The registers after the S-box instructions. -/
theorem exec1 (f : Reg → BitVec 32) :
    let g := exec prog1 f
    let e := sb (f .x0e) (f .x1e) (f .x2e) (f .x3e) (f .x4e) (f .ce)
    let o := sb (f .x0o) (f .x1o) (f .x2o) (f .x3o) (f .x4o) (f .co)
    g .x2e = e.y0 ∧ g .x3e = e.y1 ∧ g .x4e = ~~~ e.y2 ∧ g .x0e = e.y3 ∧ g .x1e = e.y4 ∧
    g .x2o = o.y0 ∧ g .x3o = o.y1 ∧ g .x4o = ~~~ o.y2 ∧ g .x0o = o.y3 ∧ g .x1o = o.y4 := by
  unfold prog1 sb
  simp only [exec_cons]
  simp only [step]
  simp only [exec_nil, C.Arm.set, Opd.val, reduceCtorEq, if_true, if_false]
  generalize f .ce = ce
  generalize f .co = co
  generalize f .x0e = a0
  generalize f .x1e = a1
  generalize f .x2e = a2
  generalize f .x3e = a3
  generalize f .x4e = a4
  generalize f .x0o = b0
  generalize f .x1o = b1
  generalize f .x2o = b2
  generalize f .x3o = b3
  generalize f .x4o = b4
  refine ⟨?_, ?_, ?_, ?_, ?_, ?_, ?_, ?_, ?_, ?_⟩
  · bitwise6 a0 a1 a2 a3 a4 ce
  · bitwise6 a0 a1 a2 a3 a4 ce
  · bitwise6 a0 a1 a2 a3 a4 ce
  · bitwise6 a0 a1 a2 a3 a4 ce
  · bitwise6 a0 a1 a2 a3 a4 ce
  · bitwise6 b0 b1 b2 b3 b4 co
  · bitwise6 b0 b1 b2 b3 b4 co
  · bitwise6 b0 b1 b2 b3 b4 co
  · bitwise6 b0 b1 b2 b3 b4 co
  · bitwise6 b0 b1 b2 b3 b4 co

set_option maxRecDepth 10000 in
/-- The linear-layer instructions. -/
theorem exec2 (f : Reg → BitVec 32) : store (exec prog2 f) =
    ⟨Bi32.lane ((f .x0e) ^^^ ((f .x0e) ^^^ (f .x0o).rotateRight 3).rotateRight 5) ((f .x0o) ^^^ ((f .x0o) ^^^ (f .x0e).rotateRight 4).rotateRight 5),
     Bi32.lane ((f .x1e) ^^^ ((f .x1o) ^^^ (f .x1o).rotateRight 17).rotateRight 3) ((f .x1o) ^^^ ((f .x1e) ^^^ (f .x1e).rotateRight 17).rotateRight 4),
     Bi32.lane ((f .x2e) ^^^ ((f .x2o) ^^^ (f .x2e).rotateRight 5).rotateRight 9) ((f .x2o) ^^^ ((f .x2e) ^^^ (f .x2o).rotateRight 4).rotateRight 10),
     Bi32.lane ((f .x3e) ^^^ ((f .x3o) ^^^ (f .x3o).rotateRight 11).rotateRight 19) ((f .x3o) ^^^ ((f .x3e) ^^^ (f .x3e).rotateRight 11).rotateRight 20),
     Bi32.lane ((f .x4e) ^^^ ((f .x4o) ^^^ (f .x4e).rotateRight 3)) ((f .x4o) ^^^ ((f .x4e) ^^^ (f .x4o).rotateRight 2).rotateRight 1)⟩ := rfl

/-- What `ROUND` of bi_32_armv7m computes: the new lanes end up two places further on. -/
def rot (s : State) : State := ⟨s.x3, s.x4, s.x0, s.x1, s.x2⟩

/-- What the block does, whatever the temporaries hold before it. -/
theorem exec_round (f : Reg → BitVec 32) : store (exec asm.code f) =
    rot (lin (sb (f .x0e) (f .x1e) (f .x2e) (f .x3e) (f .x4e) (f .ce))
      (sb (f .x0o) (f .x1o) (f .x2o) (f .x3o) (f .x4o) (f .co))) := by
  rw [asm, exec_append, exec2]
  obtain ⟨h0, h1, h2, h3, h4, k0, k1, k2, k3, k4⟩ := exec1 f
  rw [h0, h1, h2, h3, h4, k0, k1, k2, k3, k4]
  rw [not_rot _ (by omega), not_rot _ (by omega), not_xor_not, not_xor_not, not_xor, not_xor]
  rfl

theorem round_eq (s : State) (c : BitVec 64) : round s c = rot (Bi32.round s c) := by
  rw [round_words, round, block, exec_round]
  rfl

/-- Rounds with this exchange of lanes. -/
def rounds : (i n : Nat) → State → State
  | _, 0, s => s
  | i, n + 1, s => rounds (i + 1) n (rot (Spec.Ascon.round i s))

/-- The function that bi_32_armv7m computes in place of the `n`-round permutation. -/
def q (n : Nat) (s : State) : State := rounds (12 - n) n s

theorem round_rep {i : Nat} {k : BitVec 64} (h : k = Bi32.φ (rc i)) (S : State) :
    round (rep Bi32.φ S) k = rep Bi32.φ (rot (Spec.Ascon.round i S)) := by
  rw [round_eq]
  exact congrArg rot (show Bi32.round (rep Bi32.φ S) k = rep Bi32.φ (Spec.Ascon.round i S) from Bi32.bitRep.roundWith h S)

theorem seq_rep (cs : List (BitVec 64)) (i : Nat) (h : ∀ j (hj : j < cs.length), cs[j] = Bi32.φ (rc (i + j))) (S : State) :
    seqRounds round cs (rep Bi32.φ S) = rep Bi32.φ (rounds i cs.length S) := by
  induction cs generalizing i S with
  | nil => rfl
  | cons k cs ih =>
    simp only [seqRounds, List.foldl_cons] at ih ⊢
    rw [round_rep (show k = _ from h 0 (by simp)), ih (i + 1)]
    · rfl
    · intro j hj
      have := h (j + 1) (by simpa using hj)
      simpa [show i + (j + 1) = i + 1 + j by omega] using this

theorem consts : ∀ j : Fin 12, (Bi32.k12 ++ Bi32.k6 ++ Bi32.k1)[j] = Bi32.φ (rc j) := by decide +kernel

theorem consts6 : ∀ j : Fin 6, (Bi32.k6 ++ Bi32.k1)[j] = Bi32.φ (rc (6 + j)) := by decide +kernel

/-- The macros of bi_32_armv7m compute `q`. -/
theorem repOK : RepOK prims Bi32.φ q where
  toWord := Bi32.wordOK.toWord
  fromWord := Bi32.wordOK.fromWord
  toBI := Bi32.wordOK.toBI
  xor := Bi32.wordOK.xor
  top := Bi32.wordOK.top
  one := Bi32.wordOK.one
  pH _ _ S := runs_pure_eq (seq_rep (Bi32.k12 ++ Bi32.k6 ++ Bi32.k1) 0 (fun j hj => by
    have := consts ⟨j, hj⟩; simpa using this) S)
  pB _ _ S := runs_pure_eq (seq_rep Bi32.k1 11 (fun j hj => by
    have : j < 1 := hj
    have := consts ⟨11 + j, by omega⟩
    obtain rfl : j = 0 := by omega
    exact this) S)
  pE _ _ S := runs_pure_eq (seq_rep (Bi32.k6 ++ Bi32.k1) 6 (fun j hj => by
    have h6 : j < 6 := hj
    rw [← consts6 ⟨j, h6⟩]; rfl) S)
  pK _ _ S := runs_pure_eq (seq_rep (Bi32.k12 ++ Bi32.k6 ++ Bi32.k1) 0 (fun j hj => by
    have := consts ⟨j, hj⟩; simpa using this) S)

end Armv7m
end Model.Opt
