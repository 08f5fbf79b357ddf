import Verif.Proof.Thumb
import Verif.Model.KeccakAsm
import Verif.Proof.K128Arm
/-!
# `KeccakRound` of `KeccakP-400-armv6m-le-gcc.s`
-/

set_option linter.unusedSimpArgs false

namespace Model.KeccakAsm.V6
open C.Thumb Spec Model.K128

abbrev Lanes := Arm.Lanes

variable {P : Plat} {adr : Label → BitVec 32} {f : Reg → BitVec 32} {m : BitVec 32 → Byte} {is : List (Ins Label)}

/-- One row but the first. -/
def row (sOut sIn : Reg) (l1 l2 l3 l4 l5 : Nat) (d1 d2 d3 d4 d5 : Reg) (n1 n2 n3 n4 n5 : Nat) (o1 o2 o3 o4 o5 : Nat) :
    List (Ins Label) :=
  [.ldrh .r1 sIn (l1*2), .ldrh .r2 sIn (l2*2), .ldrh .r3 sIn (l3*2), .ldrh .r4 sIn (l4*2), .ldrh .r5 sIn (l5*2)] ++
  xorrol .r1 d1 n1 ++ xorrol .r2 d2 n2 ++ xorrol .r3 d3 n3 ++ xorrol .r4 d4 n4 ++ xorrol .r5 d5 n5 ++
  xandnot sOut (o1*2) .r1 .r2 .r3 .r7 ++ xandnot sOut (o2*2) .r2 .r3 .r4 .r7 ++ xandnot sOut (o3*2) .r3 .r4 .r5 .r7 ++
  xandnot sOut (o4*2) .r4 .r5 .r1 .r7 ++ xandnot sOut (o5*2) .r5 .r1 .r2 .r7

theorem runL_xorrol {b yy : Reg} (hb : b ≠ .r7) {rr : Nat} (h : rr ≠ 0) :
    runL P adr (xorrol b yy rr ++ is) f m =
      runL P adr is (set (set f .r7 ((f b ^^^ f yy) <<< rr)) b (Arm.V6.xorrol (f b) (f yy) rr)) m := by
  simp only [xorrol, h, ne_eq, not_false_eq_true, if_true, List.cons_append, List.nil_append]
  simp only [runL_mov, runL_log, runL_lsl, runL_lsr, runL_uxth0]
  congr 1
  funext r
  simp only [set_apply, Op.val, Opd.val, Sh.val]
  by_cases h1 : r = b
  · subst h1
    simp only [hb, hb.symm, if_true, if_false, Arm.V6.xorrol, Arm.uxth]
  · by_cases h2 : r = .r7
    · subst h2
      simp [hb.symm, hb]
    · simp [h1, h2]

theorem runL_xorrol0 {b yy : Reg} (hb : b ≠ .r7) :
    runL P adr (xorrol b yy 0 ++ is) f m = runL P adr is (set (set f .r7 (f yy)) b (f b ^^^ f yy)) m := by
  simp only [xorrol, ne_eq, not_true_eq_false, if_false, List.append_nil, List.cons_append, List.nil_append]
  simp only [runL_mov, runL_log]
  congr 1
  funext r
  simp only [set_apply, Op.val, Opd.val, Sh.val]
  by_cases h1 : r = b
  · subst h1
    simp only [hb, if_true, if_false]
  · simp only [h1, if_false]

/-- The registers that a row uses. -/
def Keeps (r : Reg) : Prop := r ≠ .r1 ∧ r ≠ .r2 ∧ r ≠ .r3 ∧ r ≠ .r4 ∧ r ≠ .r5 ∧ r ≠ .r7

/-- A state that can be read. -/
structure CanRead (P : Plat) (p : BitVec 32) : Prop where
  rd : ∀ a, In p 50 a → P.rd a = true
  al : p.toNat % 2 = 0

/-- A state that can be written. -/
structure CanWrite (P : Plat) (p : BitVec 32) : Prop where
  wr : ∀ a, In p 50 a → P.wr a = true
  al : p.toNat % 2 = 0

theorem runL_ldrhLane {p : BitVec 32} (h : CanRead P p) {t n : Reg} (hn : f n = p) {i : Nat} (hi : i < 25) :
    runL P adr (.ldrh t n (i * 2) :: is) f m = runL P adr is (set f t ((lanes m p)[i].setWidth 32)) m := by
  rw [lanes_get _ _ hi]
  exact runL_ldrh (by rw [hn]) (may_sub h.rd (by omega)) (aligned2 h.al _ (by omega))

theorem runL_xandnot {q : BitVec 32} (h : CanWrite P q) {n : Reg} (hn : f n = q) (hn7 : n ≠ .r7) {o : Nat} (ho : o < 25) {aa bb cc : Reg} 
    (ha : aa ≠ .r7) (hb : bb ≠ .r7) :
    runL P adr (xandnot n (o * 2) aa bb cc .r7 ++ is) f m =
      runL P adr is (set f .r7 (Arm.V6.xandnot (f aa) (f bb) (f cc)))
        (put16 m (q + BitVec.ofNat 32 (o * 2)) (Arm.strh (Arm.V6.xandnot (f aa) (f bb) (f cc)))) := by
  simp only [xandnot, List.cons_append, List.nil_append]
  simp only [runL_mov, runL_log]
  rw [runL_strh (a := q + BitVec.ofNat 32 (o * 2)) (by simp only [set_apply, hn7, if_false, hn]) (may_sub h.wr (by omega)) (aligned2 h.al _ (by omega))]
  simp only [set_apply, Op.val, Opd.val, Sh.val, if_true, ha, hb, if_false]
  congr 1
  funext r
  simp only [set_apply]
  by_cases h2 : r = .r7
  · simp only [h2, if_true, Arm.V6.xandnot]
  · simp only [h2, if_false]

theorem runL_row {p q : BitVec 32} (hp : CanRead P p) (hq : CanWrite P q) {sOut sIn : Reg} (hi : f sIn = p) (ho : f sOut = q)
    (ki : Keeps sIn) (ko : Keeps sOut) {l1 l2 l3 l4 l5 : Nat} {d1 d2 d3 d4 d5 : Reg} {n1 n2 n3 n4 n5 : Nat} {o1 o2 o3 o4 o5 : Nat}
    (hl1 : l1 < 25) (hl2 : l2 < 25) (hl3 : l3 < 25) (hl4 : l4 < 25) (hl5 : l5 < 25)
    (k1 : Keeps d1) (k2 : Keeps d2) (k3 : Keeps d3) (k4 : Keeps d4) (k5 : Keeps d5)
    (hn1 : n1 ≠ 0) (hn2 : n2 ≠ 0) (hn3 : n3 ≠ 0) (hn4 : n4 ≠ 0) (hn5 : n5 ≠ 0)
    (ho1 : o1 < 25) (ho2 : o2 < 25) (ho3 : o3 < 25) (ho4 : o4 < 25) (ho5 : o5 < 25) :
    let A := lanes m p
    let b1 := Arm.V6.xorrol (A[l1].setWidth 32) (f d1) n1
    let b2 := Arm.V6.xorrol (A[l2].setWidth 32) (f d2) n2
    let b3 := Arm.V6.xorrol (A[l3].setWidth 32) (f d3) n3
    let b4 := Arm.V6.xorrol (A[l4].setWidth 32) (f d4) n4
    let b5 := Arm.V6.xorrol (A[l5].setWidth 32) (f d5) n5
    ∃ f', runL P adr (row sOut sIn l1 l2 l3 l4 l5 d1 d2 d3 d4 d5 n1 n2 n3 n4 n5 o1 o2 o3 o4 o5) f m =
      some (f', put16 (put16 (put16 (put16 (put16 m (q + BitVec.ofNat 32 (o1 * 2)) (Arm.strh (Arm.V6.xandnot b1 b2 b3)))
        (q + BitVec.ofNat 32 (o2 * 2)) (Arm.strh (Arm.V6.xandnot b2 b3 b4)))
        (q + BitVec.ofNat 32 (o3 * 2)) (Arm.strh (Arm.V6.xandnot b3 b4 b5)))
        (q + BitVec.ofNat 32 (o4 * 2)) (Arm.strh (Arm.V6.xandnot b4 b5 b1)))
        (q + BitVec.ofNat 32 (o5 * 2)) (Arm.strh (Arm.V6.xandnot b5 b1 b2))) ∧ ∀ r, Keeps r → f' r = f r := by
  obtain ⟨i1, i2, i3, i4, i5, i7⟩ := ki
  obtain ⟨j1, j2, j3, j4, j5, j7⟩ := ko
  obtain ⟨a1, a2, a3, a4, a5, a7⟩ := k1
  obtain ⟨b1, b2, b3, b4, b5, b7⟩ := k2
  obtain ⟨c1, c2, c3, c4, c5, c7⟩ := k3
  obtain ⟨e1, e2, e3, e4, e5, e7⟩ := k4
  obtain ⟨g1, g2, g3, g4, g5, g7⟩ := k5
  intro A v1 v2 v3 v4 v5
  generalize hX : runL P adr (row sOut sIn l1 l2 l3 l4 l5 d1 d2 d3 d4 d5 n1 n2 n3 n4 n5 o1 o2 o3 o4 o5) f m = X
  simp only [row, List.append_assoc, List.cons_append, List.nil_append] at hX
  simp only [runL_nil, runL_ldrhLane hp, runL_xorrol, runL_xandnot hq, set_apply, reduceCtorEq, if_false, if_true, i1, i2, i3, i4, i5, i7, j1, j2, j3, j4, j5, j7,
      a1, a2, a3, a4, a5, a7, b1, b2, b3, b4, b5, b7, c1, c2, c3, c4, c5, c7, e1, e2, e3, e4, e5, e7, g1, g2, g3, g4, g5, g7, ne_eq, not_false_eq_true,
      hi, ho, hl1, hl2, hl3, hl4, hl5, hn1, hn2, hn3, hn4, hn5, ho1, ho2, ho3, ho4, ho5] at hX
  have e0 := fun f m => @runL_xandnot P adr f m [] q hq sOut
  simp only [List.append_nil] at e0
  simp only [e0, set_apply, reduceCtorEq, if_false, if_true, j1, j2, j3, j4, j5, j7, ho, ho5, ne_eq, not_false_eq_true, runL_nil] at hX
  subst hX
  refine ⟨_, rfl, ?_⟩
  rintro r ⟨x1, x2, x3, x4, x5, x7⟩
  simp only [set_apply, x1, x2, x3, x4, x5, x7, if_false]

theorem sets25 (V : Vector (BitVec 16) 25) (v0 v1 v2 v3 v4 v5 v6 v7 v8 v9 v10 v11 v12 v13 v14 v15 v16 v17 v18 v19 v20 v21 v22 v23 v24 : BitVec 16) :
    ((((((((((((((((((((((((V.set 5 v5).set 6 v6).set 7 v7).set 8 v8).set 9 v9).set 10 v10).set 11 v11).set 12 v12).set 13 v13).set 14 v14).set 15 v15).set 16 v16).set 17 v17).set 18 v18).set 19 v19).set 20 v20).set 21 v21).set 22 v22).set 23 v23).set 24 v24).set 1 v1).set 2 v2).set 3 v3).set 4 v4).set 0 v0 =
      #v[v0, v1, v2, v3, v4, v5, v6, v7, v8, v9, v10, v11, v12, v13, v14, v15, v16, v17, v18, v19, v20, v21, v22, v23, v24] := by
  apply Vector.ext
  intro i hi
  have : i = 0 ∨ i = 1 ∨ i = 2 ∨ i = 3 ∨ i = 4 ∨ i = 5 ∨ i = 6 ∨ i = 7 ∨ i = 8 ∨ i = 9 ∨ i = 10 ∨ i = 11 ∨ i = 12 ∨ i = 13 ∨ i = 14 ∨ i = 15 ∨ i = 16 ∨ i = 17 ∨ i = 18 ∨ i = 19 ∨ i = 20 ∨ i = 21 ∨ i = 22 ∨ i = 23 ∨ i = 24 := by omega
  rcases this with rfl|rfl|rfl|rfl|rfl|rfl|rfl|rfl|rfl|rfl|rfl|rfl|rfl|rfl|rfl|rfl|rfl|rfl|rfl|rfl|rfl|rfl|rfl|rfl|rfl <;> simp [Vector.getElem_set]

theorem runL_xor5 {p : BitVec 32} (h : CanRead P p) {res n : Reg} (hn : f n = p) (h7 : res ≠ .r7) (hn7 : n ≠ .r7) (hr : n ≠ res)
    {b g k l s : Nat} (hb : b < 25) (hg : g < 25) (hk : k < 25) (hl : l < 25) (hs : s < 25) :
    runL P adr (xor5 res n (b*2) (g*2) (k*2) (l*2) (s*2) ++ is) f m =
      runL P adr is (set (set f .r7 ((lanes m p)[s].setWidth 32)) res (Arm.V6.xor5 (lanes m p) b g k l s hb hg hk hl hs)) m := by
  simp only [xor5, List.cons_append, List.nil_append]
  simp only [runL_ldrhLane h, runL_log, set_apply, hn, hn7, hr, if_false, hb, hg, hk, hl, hs]
  congr 1
  funext r
  simp only [set_apply, Op.val, Opd.val, Sh.val]
  by_cases h1 : r = res
  · subst h1
    simp only [h7, h7.symm, if_true, if_false, Arm.V6.xor5, Arm.ldrh]
  · by_cases h2 : r = .r7
    · simp only [h2, h7.symm, if_true, if_false]
    · simp only [h1, h2, if_false]

theorem runL_rolxor {d a b rot : Reg} (hd : d ≠ .r7) (ha : a ≠ .r7) (hr : rot ≠ .r7) (h31 : f rot = 31#32) :
    runL P adr (rolxor d a b rot ++ is) f m =
      runL P adr is (set (set f .r7 (Arm.V6.rolxor (f a) (f b))) d (Arm.V6.rolxor (f a) (f b))) m := by
  simp only [rolxor, List.cons_append, List.nil_append]
  simp only [runL_sxth, runL_ror, runL_log, runL_uxth0, runL_mov]
  congr 1
  funext r
  simp only [set_apply, Op.val, Opd.val, Sh.val, ha, hr, if_false, if_true, h31]
  by_cases h1 : r = d
  · simp only [h1, if_true]; rfl
  · by_cases h2 : r = .r7
    · simp only [h2, hd.symm, if_true, if_false]; rfl
    · simp only [h1, h2, if_false]

/-- The first part of a round: lines 103-115. -/
def theta (sOut sIn : Reg) : List (Ins Label) :=
  [.push [sOut], .mov true sOut (.imm 31)] ++ xor5 .r1 sIn (0*2) (5*2) (10*2) (15*2) (20*2) ++
  xor5 .r2 sIn (1*2) (6*2) (11*2) (16*2) (21*2) ++ xor5 .r3 sIn (2*2) (7*2) (12*2) (17*2) (22*2) ++
  xor5 .r4 sIn (3*2) (8*2) (13*2) (18*2) (23*2) ++ xor5 .r5 sIn (4*2) (9*2) (14*2) (19*2) (24*2) ++ rolxor .r9 .r5 .r2 sOut ++
  rolxor .r10 .r1 .r3 sOut ++ rolxor .r11 .r2 .r4 sOut ++ rolxor .r12 .r3 .r5 sOut ++ rolxor .lr .r4 .r1 sOut ++
  [.pop [sOut]]

/-- The word below the stack pointer. -/
structure CanPush (P : Plat) (s : BitVec 32) : Prop where
  rd : ∀ a, In (s - 4) 4 a → P.rd a = true
  wr : ∀ a, In (s - 4) 4 a → P.wr a = true
  al : s.toNat % 4 = 0

theorem CanPush.al' {s : BitVec 32} (h : CanPush P s) : aligned true (s - 4) 4 = true := by
  have h1 := h.al
  have : (s - 4).toNat % 4 = 0 := by
    rw [BitVec.toNat_sub]
    have : (4 : BitVec 32).toNat = 4 := rfl
    omega
  simp only [aligned, this, Bool.not_true, Bool.false_or, beq_self_eq_true]

theorem keeps_sp : Keeps .sp := by simp [Keeps]

theorem runL_pushOne {s a : BitVec 32} {r : Reg} (hs : CanPush P s) (h : f .sp = s) (ha : s - 4 = a) :
    runL P adr (.push [r] :: is) f m = runL P adr is (set f .sp a) (put32 m a (f r)) := by
  subst ha
  subst h
  exact runL_push (rs := [r]) rfl (may_intro hs.wr) hs.al'

theorem runL_popOne {s a : BitVec 32} {r : Reg} (hs : CanPush P s) (h : f .sp = a) (ha : s - 4 = a) :
    runL P adr [.pop [r]] f m = some (set (set f r (get32 m a)) .sp s, m) := by
  subst ha
  have e := runL_pop (P := P) (adr := adr) (f := f) (m := m) (is := []) (rs := [r]) h (may_intro hs.rd) hs.al'
  rw [e, runL_nil, loadRegs, loadRegs]
  have : s - 4 + BitVec.ofNat 32 (4 * [r].length) = s := BitVec.sub_add_cancel _ _
  rw [this]

theorem runL_theta {p s : BitVec 32} (hp : CanRead P p) {sOut sIn : Reg} (hi : f sIn = p) (hs : CanPush P s) (hsp : f .sp = s)
    (hsep : Sep (s - 4) 4 p 50) (hio : sOut = .r6 ∧ sIn = .r0 ∨ sOut = .r0 ∧ sIn = .r6) :
    ∃ f', runL P adr (theta sOut sIn) f m = some (f', put32 m (s - 4) (f sOut)) ∧
      (f' .r9, f' .r10, f' .r11, f' .r12, f' .lr) = Arm.V6.prepTheta (lanes m p) ∧
      ∀ r, Keeps r → r ≠ .r9 → r ≠ .r10 → r ≠ .r11 → r ≠ .r12 → r ≠ .lr → f' r = f r := by
  have hm : lanes (put32 m (s - 4) (f sOut)) p = lanes m p := lanes_only (only_put32 _ _ _) hsep.symm
  have hg : get32 (put32 m (s - 4) (f sOut)) (s - 4) = f sOut := get32_put32 _ _ _
  generalize hX : runL P adr (theta sOut sIn) f m = X
  simp only [theta, List.append_assoc, List.cons_append, List.nil_append] at hX
  generalize ha : s - 4 = a at hm hg ⊢
  rw [runL_pushOne hs hsp ha] at hX
  generalize put32 m a (f sOut) = m1 at hm hX hg ⊢
  rcases hio with ⟨rfl, rfl⟩ | ⟨rfl, rfl⟩
  all_goals
    simp only [runL_mov, runL_xor5 hp, runL_rolxor, set_apply, reduceCtorEq, if_false, if_true, hi, ne_eq, not_false_eq_true, Opd.val,
      Nat.reduceLT] at hX
    rw [runL_popOne hs (by simp only [set_apply, reduceCtorEq, if_false, if_true]) ha] at hX
    subst hX
    refine ⟨_, rfl, ?_, ?_⟩
    · simp only [set_apply, reduceCtorEq, if_false, if_true, hm, Arm.V6.prepTheta]
    · rintro r ⟨x1, x2, x3, x4, x5, x7⟩ y9 y10 y11 y12 yl
      simp only [set_apply, x1, x2, x3, x4, x5, x7, y9, y10, y11, y12, yl, if_false, hg]
      by_cases h1 : r = .sp
      · simp only [h1, if_true, hsp]
      · simp only [h1, if_false]
        split
        · next h => rw [h]
        · rfl


/-- Writing lanes of a state leaves everything else alone. -/
theorem only_lane (m : BitVec 32 → Byte) (q : BitVec 32) {o : Nat} (h : o < 25) (v : BitVec 16) :
    Only (In q 50) m (put16 m (q + BitVec.ofNat 32 (o * 2)) v) :=
  (only_put16 _ _ _).mono fun _ hx => in_add (by omega) hx

/-- The row with the round constant: lines 181-196. -/
def lastRow (sOut sIn : Reg) (rco : Nat) : List (Ins Label) :=
  [.ldrh .r1 sIn (0*2), .ldrh .r2 sIn (6*2), .ldrh .r3 sIn (12*2), .ldrh .r4 sIn (18*2), .ldrh .r5 sIn (24*2)] ++
  xorrol .r1 .r9 0 ++ xorrol .r2 .r10 12 ++ xorrol .r3 .r11 11 ++ xorrol .r4 .r12 5 ++ xorrol .r5 .lr 14 ++
  xandnot sOut (1*2) .r2 .r3 .r4 .r7 ++ xandnot sOut (2*2) .r3 .r4 .r5 .r7 ++ xandnot sOut (3*2) .r4 .r5 .r1 .r7 ++
  xandnot sOut (4*2) .r5 .r1 .r2 .r7 ++ xandnotRC sOut (0*2) .r1 .r2 .r3 rco

theorem runL_xandnotRC {q a : BitVec 32} (h : CanWrite P q) {n : Reg} (hn : f n = q) (kn : Keeps n) {o rco : Nat} (ho : o < 25)
    (h8 : f .r8 + BitVec.ofNat 32 rco = a) (hr : ∀ x, In a 2 x → P.rd x = true) (ha : a.toNat % 2 = 0) :
    runL P adr (xandnotRC n (o * 2) .r1 .r2 .r3 rco) f m =
      some (set (set (set f .r3 (Arm.V6.xandnotRC (f .r1) (f .r2) (f .r3) (get16 m a))) .r7 (f .r8)) .r2 ((get16 m a).setWidth 32),
        put16 m (q + BitVec.ofNat 32 (o * 2)) (Arm.strh (Arm.V6.xandnotRC (f .r1) (f .r2) (f .r3) (get16 m a)))) := by
  obtain ⟨i1, i2, i3, i4, i5, i7⟩ := kn
  have hal : aligned P.strict a 2 = true := by simp [aligned, ha]
  generalize hX : runL P adr (xandnotRC n (o * 2) .r1 .r2 .r3 rco) f m = X
  simp only [xandnotRC, runL_log, runL_mov] at hX
  rw [runL_ldrh (a := a) (by simp only [set_apply, reduceCtorEq, if_false, if_true, Opd.val, Sh.val, h8]) (may_intro hr) hal] at hX
  simp only [runL_log] at hX
  rw [runL_strh (a := q + BitVec.ofNat 32 (o * 2)) (by simp only [set_apply, i3, i2, i7, if_false, hn]) (may_sub h.wr (by omega))
    (aligned2 h.al _ (by omega)), runL_nil] at hX
  subst hX
  simp only [set_apply, reduceCtorEq, if_false, if_true, Op.val, Opd.val, Sh.val]
  congr 2
  funext r
  simp only [set_apply]
  by_cases h1 : r = .r3
  · simp only [h1, if_true, reduceCtorEq, if_false, Arm.V6.xandnotRC]
  · simp only [h1, if_false]

theorem runL_lastRow {p q a : BitVec 32} (hp : CanRead P p) (hq : CanWrite P q) {sOut sIn : Reg} (hi : f sIn = p) (ho : f sOut = q)
    (ki : Keeps sIn) (ko : Keeps sOut) {rco : Nat} (h8 : f .r8 + BitVec.ofNat 32 rco = a) (hr : ∀ x, In a 2 x → P.rd x = true)
    (ha : a.toNat % 2 = 0) (haq : Sep a 2 q 50) :
    let A := lanes m p
    let b1 := A[0].setWidth 32 ^^^ f .r9
    let b2 := Arm.V6.xorrol (A[6].setWidth 32) (f .r10) 12
    let b3 := Arm.V6.xorrol (A[12].setWidth 32) (f .r11) 11
    let b4 := Arm.V6.xorrol (A[18].setWidth 32) (f .r12) 5
    let b5 := Arm.V6.xorrol (A[24].setWidth 32) (f .lr) 14
    ∃ f' m', runL P adr (lastRow sOut sIn rco) f m = some (f', m') ∧
      lanes m' q = (((((lanes m q).set 1 (Arm.strh (Arm.V6.xandnot b2 b3 b4))).set 2 (Arm.strh (Arm.V6.xandnot b3 b4 b5))).set 3
        (Arm.strh (Arm.V6.xandnot b4 b5 b1))).set 4 (Arm.strh (Arm.V6.xandnot b5 b1 b2))).set 0
        (Arm.strh (Arm.V6.xandnotRC b1 b2 b3 (get16 m a))) ∧
      Only (In q 50) m m' ∧ (∀ r, Keeps r → f' r = f r) ∧ f' .r7 = f .r8 := by
  have ki' := ki
  have ko' := ko
  obtain ⟨i1, i2, i3, i4, i5, i7⟩ := ki
  obtain ⟨j1, j2, j3, j4, j5, j7⟩ := ko
  intro A b1 b2 b3 b4 b5
  generalize hX : runL P adr (lastRow sOut sIn rco) f m = X
  simp only [lastRow, List.append_assoc, List.cons_append, List.nil_append] at hX
  simp only [runL_ldrhLane hp, runL_xorrol0, runL_xorrol, runL_xandnot hq, set_apply, reduceCtorEq, if_false, if_true, i1, i2, i3, i4, i5, i7, j1, j2, j3, j4, j5, j7,
      ne_eq, not_false_eq_true, hi, ho, Nat.reduceLT, Nat.reduceEqDiff] at hX
  rw [runL_xandnotRC (a := a) hq (by simp only [set_apply, j1, j2, j3, j4, j5, j7, if_false, ho]) ko' (by decide)
    (by simp only [set_apply, reduceCtorEq, if_false, h8]) hr ha] at hX
  simp only [set_apply, reduceCtorEq, if_false, if_true] at hX
  subst hX
  refine ⟨_, _, rfl, ?_, ?_, ?_, ?_⟩
  · rw [lanes_put16 _ _ (by decide), lanes_put16 _ _ (by decide), lanes_put16 _ _ (by decide), lanes_put16 _ _ (by decide),
      lanes_put16 _ _ (by decide)]
    rw [get16_only (((((only_lane m q (by decide) _).trans (only_lane _ q (by decide) _)).trans (only_lane _ q (by decide) _)).trans
      (only_lane _ q (by decide) _))) haq]
  · exact ((((only_lane m q (by decide) _).trans (only_lane _ q (by decide) _)).trans (only_lane _ q (by decide) _)).trans
      (only_lane _ q (by decide) _)).trans (only_lane _ q (by decide) _)
  · rintro r ⟨x1, x2, x3, x4, x5, x7⟩
    simp only [set_apply, x1, x2, x3, x4, x5, x7, if_false]
  · simp only [set_apply, reduceCtorEq, if_false, if_true]


theorem runL_row' {p q : BitVec 32} (hp : CanRead P p) (hq : CanWrite P q) {sOut sIn : Reg} (hi : f sIn = p) (ho : f sOut = q)
    (ki : Keeps sIn) (ko : Keeps sOut) {l1 l2 l3 l4 l5 : Nat} {d1 d2 d3 d4 d5 : Reg} {n1 n2 n3 n4 n5 : Nat} {o1 o2 o3 o4 o5 : Nat}
    (hl1 : l1 < 25) (hl2 : l2 < 25) (hl3 : l3 < 25) (hl4 : l4 < 25) (hl5 : l5 < 25)
    (k1 : Keeps d1) (k2 : Keeps d2) (k3 : Keeps d3) (k4 : Keeps d4) (k5 : Keeps d5)
    (hn1 : n1 ≠ 0) (hn2 : n2 ≠ 0) (hn3 : n3 ≠ 0) (hn4 : n4 ≠ 0) (hn5 : n5 ≠ 0)
    (ho1 : o1 < 25) (ho2 : o2 < 25) (ho3 : o3 < 25) (ho4 : o4 < 25) (ho5 : o5 < 25) {A : Lanes} (hA : lanes m p = A)
    {B : Lanes} (hB : lanes m q = B) :
    let b1 := Arm.V6.xorrol (Arm.ldrh A l1 hl1) (f d1) n1
    let b2 := Arm.V6.xorrol (Arm.ldrh A l2 hl2) (f d2) n2
    let b3 := Arm.V6.xorrol (Arm.ldrh A l3 hl3) (f d3) n3
    let b4 := Arm.V6.xorrol (Arm.ldrh A l4 hl4) (f d4) n4
    let b5 := Arm.V6.xorrol (Arm.ldrh A l5 hl5) (f d5) n5
    ∃ f' m', runL P adr (row sOut sIn l1 l2 l3 l4 l5 d1 d2 d3 d4 d5 n1 n2 n3 n4 n5 o1 o2 o3 o4 o5) f m = some (f', m') ∧
      lanes m' q = ((((B.set o1 (Arm.strh (Arm.V6.xandnot b1 b2 b3))).set o2 (Arm.strh (Arm.V6.xandnot b2 b3 b4))).set o3
        (Arm.strh (Arm.V6.xandnot b3 b4 b5))).set o4 (Arm.strh (Arm.V6.xandnot b4 b5 b1))).set o5 (Arm.strh (Arm.V6.xandnot b5 b1 b2)) ∧
      Only (In q 50) m m' ∧ ∀ r, Keeps r → f' r = f r := by
  subst hA
  subst hB
  intro b1 b2 b3 b4 b5
  obtain ⟨f', e, h⟩ := runL_row (adr := adr) (m := m) hp hq hi ho ki ko hl1 hl2 hl3 hl4 hl5 k1 k2 k3 k4 k5 hn1 hn2 hn3 hn4 hn5 ho1 ho2 ho3 ho4 ho5
  refine ⟨f', _, e, ?_, ?_, h⟩
  · rw [lanes_put16 _ _ ho5, lanes_put16 _ _ ho4, lanes_put16 _ _ ho3, lanes_put16 _ _ ho2, lanes_put16 _ _ ho1]
    rfl
  · exact ((((only_lane m q ho1 _).trans (only_lane _ q ho2 _)).trans (only_lane _ q ho3 _)).trans
      (only_lane _ q ho4 _)).trans (only_lane _ q ho5 _)

theorem keccakRound_eq (sOut sIn : Reg) (rco : Nat) : keccakRound sOut sIn rco =
    theta sOut sIn ++ (row sOut sIn 3 9 10 16 22 .r12 .lr .r9 .r10 .r11 12 4 3 13 13 5 6 7 8 9 ++ (row sOut sIn 1 7 13 19 20 .r10 .r11 .r12 .lr .r9 1 6 9 8 2 10 11 12 13 14 ++
      (row sOut sIn 4 5 11 17 23 .lr .r9 .r10 .r11 .r12 11 4 10 15 8 15 16 17 18 19 ++ (row sOut sIn 2 8 14 15 21 .r11 .r12 .lr .r9 .r10 14 7 7 9 2 20 21 22 23 24 ++
        lastRow sOut sIn rco)))) := by
  unfold keccakRound theta row lastRow
  simp only [List.append_assoc, List.cons_append, List.nil_append]

/-- The registers that a round leaves alone. -/
def Safe (r : Reg) : Prop := Keeps r ∧ r ≠ .r9 ∧ r ≠ .r10 ∧ r ≠ .r11 ∧ r ≠ .r12 ∧ r ≠ .lr

theorem runL_keccakRound {p q s a : BitVec 32} (hp : CanRead P p) (hq : CanWrite P q) {sOut sIn : Reg} (hi : f sIn = p) (ho : f sOut = q)
    (hio : sOut = .r6 ∧ sIn = .r0 ∨ sOut = .r0 ∧ sIn = .r6) (hs : CanPush P s) (hsp : f .sp = s)
    (hsep : Sep (s - 4) 4 p 50) (hpq : Sep p 50 q 50) {rco : Nat}
    (h8 : f .r8 + BitVec.ofNat 32 rco = a) (hr : ∀ x, In a 2 x → P.rd x = true) (ha : a.toNat % 2 = 0) (haq : Sep a 2 q 50)
    (has : Sep a 2 (s - 4) 4) :
    ∃ f' m', runL P adr (keccakRound sOut sIn rco) f m = some (f', m') ∧
      lanes m' q = Arm.V6.round (get16 m a) (lanes m p) ∧ Only (fun x => In q 50 x ∨ In (s - 4) 4 x) m m' ∧
      (∀ r, Safe r → f' r = f r) ∧ f' .r7 = f .r8 := by
  have ki : Keeps sIn := by rcases hio with ⟨rfl, rfl⟩ | ⟨rfl, rfl⟩ <;> simp [Keeps]
  have ko : Keeps sOut := by rcases hio with ⟨rfl, rfl⟩ | ⟨rfl, rfl⟩ <;> simp [Keeps]
  have si : Safe sIn := by rcases hio with ⟨rfl, rfl⟩ | ⟨rfl, rfl⟩ <;> simp [Safe, Keeps]
  have so : Safe sOut := by rcases hio with ⟨rfl, rfl⟩ | ⟨rfl, rfl⟩ <;> simp [Safe, Keeps]
  have s8 : Safe .r8 := by simp [Safe, Keeps]
  have y9 : Keeps .r9 := by simp [Keeps]
  have y10 : Keeps .r10 := by simp [Keeps]
  have y11 : Keeps .r11 := by simp [Keeps]
  have y12 : Keeps .r12 := by simp [Keeps]
  have yl : Keeps .lr := by simp [Keeps]
  have y8 : Keeps .r8 := by simp [Keeps]
  obtain ⟨f0, e0, t0, g0⟩ := runL_theta (adr := adr) (m := m) hp hi hs hsp hsep hio
  have o0 : Only (In (s - 4) 4) m (put32 m (s - 4) (f sOut)) := only_put32 _ _ _
  generalize put32 m (s - 4) (f sOut) = m0 at e0 o0
  replace g0 : ∀ r, Safe r → f0 r = f r := fun r h => g0 r h.1 h.2.1 h.2.2.1 h.2.2.2.1 h.2.2.2.2.1 h.2.2.2.2.2
  have a0 : lanes m0 p = lanes m p := lanes_only o0 hsep.symm
  have i0 : f0 sIn = p := (g0 _ si).trans hi
  have j0 : f0 sOut = q := (g0 _ so).trans ho
  obtain ⟨f1, m1, e1, b1, o1, g1⟩ := runL_row' (adr := adr) (f := f0) (m := m0) hp hq i0 j0 ki ko (l1 := 3) (l2 := 9) (l3 := 10) (l4 := 16) (l5 := 22)
    (n1 := 12) (n2 := 4) (n3 := 3) (n4 := 13) (n5 := 13) (o1 := 5) (o2 := 6) (o3 := 7) (o4 := 8) (o5 := 9) (by decide) (by decide) (by decide) (by decide) (by decide) y12 yl y9 y10 y11
    (by decide) (by decide) (by decide) (by decide) (by decide) (by decide) (by decide) (by decide) (by decide) (by decide) a0 rfl
  have a1 : lanes m1 p = lanes m p := (lanes_only o1 hpq).trans a0
  have i1 : f1 sIn = p := (g1 _ ki).trans i0
  have j1 : f1 sOut = q := (g1 _ ko).trans j0
  obtain ⟨f2, m2, e2, b2, o2, g2⟩ := runL_row' (adr := adr) (f := f1) (m := m1) hp hq i1 j1 ki ko (l1 := 1) (l2 := 7) (l3 := 13) (l4 := 19) (l5 := 20)
    (n1 := 1) (n2 := 6) (n3 := 9) (n4 := 8) (n5 := 2) (o1 := 10) (o2 := 11) (o3 := 12) (o4 := 13) (o5 := 14) (by decide) (by decide) (by decide) (by decide) (by decide) y10 y11 y12 yl y9
    (by decide) (by decide) (by decide) (by decide) (by decide) (by decide) (by decide) (by decide) (by decide) (by decide) a1 b1
  have a2 : lanes m2 p = lanes m p := (lanes_only o2 hpq).trans a1
  have i2 : f2 sIn = p := (g2 _ ki).trans i1
  have j2 : f2 sOut = q := (g2 _ ko).trans j1
  obtain ⟨f3, m3, e3, b3, o3, g3⟩ := runL_row' (adr := adr) (f := f2) (m := m2) hp hq i2 j2 ki ko (l1 := 4) (l2 := 5) (l3 := 11) (l4 := 17) (l5 := 23)
    (n1 := 11) (n2 := 4) (n3 := 10) (n4 := 15) (n5 := 8) (o1 := 15) (o2 := 16) (o3 := 17) (o4 := 18) (o5 := 19) (by decide) (by decide) (by decide) (by decide) (by decide) yl y9 y10 y11 y12
    (by decide) (by decide) (by decide) (by decide) (by decide) (by decide) (by decide) (by decide) (by decide) (by decide) a2 b2
  have a3 : lanes m3 p = lanes m p := (lanes_only o3 hpq).trans a2
  have i3 : f3 sIn = p := (g3 _ ki).trans i2
  have j3 : f3 sOut = q := (g3 _ ko).trans j2
  obtain ⟨f4, m4, e4, b4, o4, g4⟩ := runL_row' (adr := adr) (f := f3) (m := m3) hp hq i3 j3 ki ko (l1 := 2) (l2 := 8) (l3 := 14) (l4 := 15) (l5 := 21)
    (n1 := 14) (n2 := 7) (n3 := 7) (n4 := 9) (n5 := 2) (o1 := 20) (o2 := 21) (o3 := 22) (o4 := 23) (o5 := 24) (by decide) (by decide) (by decide) (by decide) (by decide) y11 y12 yl y9 y10
    (by decide) (by decide) (by decide) (by decide) (by decide) (by decide) (by decide) (by decide) (by decide) (by decide) a3 b3
  have a4 : lanes m4 p = lanes m p := (lanes_only o4 hpq).trans a3
  have i4 : f4 sIn = p := (g4 _ ki).trans i3
  have j4 : f4 sOut = q := (g4 _ ko).trans j3
  have k1 : ∀ r, Keeps r → f1 r = f0 r := g1
  have k2 : ∀ r, Keeps r → f2 r = f0 r := fun r h => (g2 r h).trans (k1 r h)
  have k3 : ∀ r, Keeps r → f3 r = f0 r := fun r h => (g3 r h).trans (k2 r h)
  have k4 : ∀ r, Keeps r → f4 r = f0 r := fun r h => (g4 r h).trans (k3 r h)
  have c4 : get16 m4 a = get16 m a :=
    (get16_only (((o1.trans o2).trans o3).trans o4) haq).trans (get16_only o0 has)
  obtain ⟨f5, m5, e5, b5, o5, g5, r7⟩ := runL_lastRow (adr := adr) (m := m4) (a := a) hp hq i4 j4 ki ko
    (by rw [k4 _ y8, g0 _ s8]; exact h8) hr ha haq
  refine ⟨f5, m5, ?_, ?_, ?_, ?_, ?_⟩
  · rw [keccakRound_eq]
    exact runL_trans e0 (runL_trans e1 (runL_trans e2 (runL_trans e3 (runL_trans e4 e5))))
  · rw [b5, a4, b4, sets25, c4]
    simp only [k1 _ y9, k1 _ y10, k1 _ y11, k1 _ y12, k1 _ yl, k2 _ y9, k2 _ y10, k2 _ y11, k2 _ y12, k2 _ yl,
      k3 _ y9, k3 _ y10, k3 _ y11, k3 _ y12, k3 _ yl, k4 _ y9, k4 _ y10, k4 _ y11, k4 _ y12, k4 _ yl]
    rw [Arm.V6.round, ← t0]
    rfl
  · have w0 : Only (fun x => In q 50 x ∨ In (s - 4) 4 x) m m0 := o0.mono fun _ h => Or.inr h
    have w5 : Only (fun x => In q 50 x ∨ In (s - 4) 4 x) m0 m5 := ((((o1.trans o2).trans o3).trans o4).trans o5).mono fun _ h => Or.inl h
    exact w0.trans w5
  · intro r h
    rw [g5 _ h.1, k4 _ h.1, g0 _ h]
  · rw [r7, k4 _ y8, g0 _ s8]

end Model.KeccakAsm.V6
