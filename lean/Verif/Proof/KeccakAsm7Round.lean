import Verif.Proof.Thumb
import Verif.Model.KeccakAsm
import Verif.Proof.K128Arm
/-!
# `KeccakRound` of `KeccakP-400-armv7m-le-gcc.s`
-/

set_option linter.unusedSimpArgs false

namespace Model.KeccakAsm.V7
open C.Thumb Spec Model.K128

abbrev Lanes := Arm.Lanes

variable {P : Plat} {adr : Label → BitVec 32} {f : Reg → BitVec 32} {m : BitVec 32 → Byte} {is : List (Ins Label)}

/-! ## Macros -/

/-- A state that can be read. -/
structure CanRead (P : Plat) (p : BitVec 32) : Prop where
  rd : ∀ a, In p 50 a → P.rd a = true
  al : p.toNat % 2 = 0
  un : P.strict = false

/-- A state that can be written. -/
structure CanWrite (P : Plat) (p : BitVec 32) : Prop where
  wr : ∀ a, In p 50 a → P.wr a = true
  al : p.toNat % 2 = 0

theorem runL_ldrhLane {p : BitVec 32} (h : CanRead P p) {t n : Reg} (hn : f n = p) {i : Nat} (hi : i < 25) :
    runL P adr (.ldrh t n (i * 2) :: is) f m = runL P adr is (set f t (Arm.ldrh (lanes m p) i hi)) m := by
  rw [Arm.ldrh, lanes_get _ _ hi]
  exact runL_ldrh (by rw [hn]) (may_sub h.rd (by omega)) (aligned2 h.al _ (by omega))

theorem runL_ldrLane {p : BitVec 32} (h : CanRead P p) {t n : Reg} (hn : f n = p) {i : Nat} (hi : i + 1 < 25) :
    runL P adr (.ldr t n (i * 2) :: is) f m = runL P adr is (set f t (Arm.ldr (lanes m p) i hi)) m := by
  rw [Arm.ldr, lanes_get _ _ (show i < 25 by omega), lanes_get _ _ hi, show (i + 1) * 2 = i * 2 + 2 by omega, ← add_add]
  exact runL_ldr (a := p + BitVec.ofNat 32 (i * 2)) (by rw [hn]) (may_sub h.rd (by omega)) (by rw [h.un]; rfl)

theorem runL_xorrol {b yy : Reg} {rr : Nat} :
    runL P adr (xorrol b yy rr ++ is) f m = runL P adr is (set f b (Arm.V7.xorrol (f b) (f yy) rr)) m := by
  by_cases h : rr = 8
  · simp only [xorrol, h, ne_eq, not_true_eq_false, if_false, List.cons_append, List.nil_append, runL_log, runL_rev16]
    congr 1
    funext r
    simp only [set_apply, Op.val, Opd.val, Sh.val, if_true]
    by_cases h1 : r = b
    · simp only [h1, if_true, Arm.V7.xorrol, ne_eq, not_true_eq_false, if_false]; rfl
    · simp only [h1, if_false]
  · simp only [xorrol, h, ne_eq, not_false_eq_true, if_true, List.cons_append, List.nil_append, runL_log, runL_lsl]
    congr 1
    funext r
    simp only [set_apply, Op.val, Opd.val, Sh.val, if_true]
    by_cases h1 : r = b
    · simp only [h1, if_true, Arm.V7.xorrol, ne_eq, h, not_false_eq_true]
    · simp only [h1, if_false]

theorem runL_rolxor {d a b : Reg} (hb : b ≠ d) :
    runL P adr (rolxor d a b ++ is) f m = runL P adr is (set f d (Arm.V7.rolxor (f a) (f b))) m := by
  simp only [rolxor, List.cons_append, List.nil_append, runL_log, runL_uxth0]
  congr 1
  funext r
  simp only [set_apply, Op.val, Opd.val, Sh.val, if_true, hb, if_false]
  by_cases h1 : r = d
  · simp only [h1, if_true]; rfl
  · simp only [h1, if_false]

theorem runL_xandnot {q : BitVec 32} (h : CanWrite P q) {n t : Reg} (hn : f n = q) (hnt : n ≠ t) {o : Nat} (ho : o < 25) {aa bb cc : Reg}
    (ha : aa ≠ t) :
    runL P adr (xandnot n (o * 2) aa bb cc t ++ is) f m =
      runL P adr is (set f t (Arm.V7.xandnot (f aa) (f bb) (f cc)))
        (put16 m (q + BitVec.ofNat 32 (o * 2)) (Arm.strh (Arm.V7.xandnot (f aa) (f bb) (f cc)))) := by
  simp only [xandnot, List.cons_append, List.nil_append, runL_log]
  rw [runL_strh (a := q + BitVec.ofNat 32 (o * 2)) (by simp only [set_apply, hnt, if_false, hn]) (may_sub h.wr (by omega)) (aligned2 h.al _ (by omega))]
  simp only [set_apply, Op.val, Opd.val, Sh.val, if_true, ha, if_false]
  congr 1
  funext r
  simp only [set_apply]
  by_cases h2 : r = t
  · simp only [h2, if_true, Arm.V7.xandnot]
  · simp only [h2, if_false]

theorem runL_xor5D {p : BitVec 32} (h : CanRead P p) {rL rH n sL sH : Reg} (hn : f n = p) {b g k l : Nat}
    (hb : b + 1 < 25) (hg : g + 1 < 25) (hk : k + 1 < 25) (hl : l + 1 < 25)
    (n1 : n ≠ rL) (n2 : n ≠ sL) (n3 : n ≠ .r6) (s1 : rL ≠ sL) (s2 : rL ≠ .r6) (s3 : sL ≠ .r6) (s4 : rH ≠ rL) (s6 : rH ≠ .r6) :
    runL P adr (xor5D rL rH n (b*2) (g*2) (k*2) (l*2) sL sH ++ is) f m =
      runL P adr is (set (set (set (set f sL (Arm.ldr (lanes m p) k hk)) .r6 (Arm.ldr (lanes m p) l hl)) rH
        (Arm.V7.xor5D (lanes m p) b g k l (f sL) (f sH) hb hg hk hl).2) rL
        (Arm.V7.xor5D (lanes m p) b g k l (f sL) (f sH) hb hg hk hl).1) m := by
  simp only [xor5D, List.cons_append, List.nil_append]
  simp only [runL_bfi16, runL_ldrLane h, runL_log, runL_lsr, runL_uxth0, set_apply, hn, n1, n2, n3, if_false, hb, hg, hk, hl]
  congr 1
  funext r
  simp only [set_apply, Op.val, Opd.val, Sh.val, if_true, if_false, s1, s2, s3, s4, s6, s1.symm, s2.symm, s3.symm, s4.symm, s6.symm]
  by_cases h1 : r = rL
  · simp only [h1, if_true]; rfl
  · by_cases h2 : r = rH
    · simp only [h1, h2, if_true, if_false, s4]; rfl
    · by_cases h3 : r = .r6
      · simp only [h3, s2.symm, s6.symm, s3.symm, if_true, if_false]
      · simp only [h1, h2, h3, if_false]
        split <;> rfl

theorem runL_xor5 {p : BitVec 32} (h : CanRead P p) {res n s : Reg} (hn : f n = p) {b g k l : Nat}
    (hb : b < 25) (hg : g < 25) (hk : k < 25) (hl : l < 25)
    (n1 : n ≠ res) (n2 : n ≠ s) (n3 : n ≠ .r6) (s1 : res ≠ s) (s2 : res ≠ .r6) (s3 : s ≠ .r6) :
    runL P adr (xor5 res n (b*2) (g*2) (k*2) (l*2) s ++ is) f m =
      runL P adr is (set (set (set f s (Arm.ldrh (lanes m p) k hk)) .r6 (Arm.ldrh (lanes m p) l hl)) res
        (Arm.V7.xor5 (lanes m p) b g k l (f s) hb hg hk hl)) m := by
  simp only [xor5, List.cons_append, List.nil_append]
  simp only [runL_ldrhLane h, runL_log, set_apply, hn, n1, n2, n3, if_false, hb, hg, hk, hl]
  congr 1
  funext r
  simp only [set_apply, Op.val, Opd.val, Sh.val, if_true, if_false, s1, s2, s3, s1.symm, s2.symm, s3.symm]
  by_cases h1 : r = res
  · simp only [h1, if_true]; rfl
  · by_cases h3 : r = .r6
    · simp only [h3, s2.symm, s3.symm, if_true, if_false]
    · simp only [h1, h3, if_false]

theorem runL_xandnotRC {q a : BitVec 32} (h : CanWrite P q) {n : Reg} (hn : f n = q) (n3 : n ≠ .r3) (n6 : n ≠ .r6) (n8 : n ≠ .r8) {o : Nat} (ho : o < 25)
    (h8 : f .r8 = a) (hr : ∀ x, In a 2 x → P.rd x = true) (ha : a.toNat % 2 = 0) :
    runL P adr (xandnotRC n (o * 2) .r1 .r2 .r3 ++ is) f m =
      runL P adr is (set (set (set f .r8 (a + BitVec.ofNat 32 2)) .r6 ((get16 m a).setWidth 32)) .r3 (Arm.V7.xandnotRC (f .r1) (f .r2) (f .r3) (get16 m a)))
        (put16 m (q + BitVec.ofNat 32 (o * 2)) (Arm.strh (Arm.V7.xandnotRC (f .r1) (f .r2) (f .r3) (get16 m a)))) := by
  have hal : aligned P.strict a 2 = true := by simp [aligned, ha]
  simp only [xandnotRC, List.cons_append, List.nil_append]
  rw [runL_ldrhPost (a := a) h8 (may_intro hr) hal]
  simp only [runL_log]
  rw [runL_strh (a := q + BitVec.ofNat 32 (o * 2)) (by simp only [set_apply, n3, n6, n8, if_false, hn]) (may_sub h.wr (by omega))
    (aligned2 h.al _ (by omega))]
  simp only [set_apply, reduceCtorEq, if_false, if_true, Op.val, Opd.val, Sh.val]
  congr 1
  funext r
  simp only [set_apply]
  by_cases h1 : r = .r3
  · simp only [h1, if_true]; rfl
  · simp only [h1, if_false]

/-! ## Rows -/

/-- Writing lanes of a state leaves everything else alone. -/
theorem only_lane (m : BitVec 32 → Byte) (q : BitVec 32) {o : Nat} (h : o < 25) (v : BitVec 16) :
    Only (In q 50) m (put16 m (q + BitVec.ofNat 32 (o * 2)) v) :=
  (only_put16 _ _ _).mono fun _ hx => in_add (by omega) hx

/-- The registers that a row leaves alone. -/
def Keeps (r : Reg) : Prop := r ≠ .r1 ∧ r ≠ .r2 ∧ r ≠ .r3 ∧ r ≠ .r4 ∧ r ≠ .r5 ∧ r ≠ .r6

/-- One of the rows 1 to 3: lines 140-188. -/
def row (sOut sIn : Reg) (l1 l2 l3 l4 l5 : Nat) (d1 d2 d3 d4 d5 : Reg) (n1 n2 n3 n4 n5 : Nat) (o1 o2 o3 o4 o5 : Nat) :
    List (Ins Label) :=
  [.ldrh .r1 sIn (l1*2), .ldrh .r2 sIn (l2*2), .ldrh .r3 sIn (l3*2), .ldrh .r4 sIn (l4*2), .ldrh .r5 sIn (l5*2)] ++
  xorrol .r1 d1 n1 ++ xorrol .r2 d2 n2 ++ xorrol .r3 d3 n3 ++ xorrol .r4 d4 n4 ++ xorrol .r5 d5 n5 ++
  xandnot sOut (o1*2) .r1 .r2 .r3 .r6 ++ xandnot sOut (o2*2) .r2 .r3 .r4 .r6 ++ xandnot sOut (o3*2) .r3 .r4 .r5 .r6 ++
  xandnot sOut (o4*2) .r4 .r5 .r1 .r6 ++ xandnot sOut (o5*2) .r5 .r1 .r2 .r6 ++ [.log .eor false .r7 .r7 (.reg .r6)]

theorem runL_row {p q : BitVec 32} (hp : CanRead P p) (hq : CanWrite P q) {sOut sIn : Reg} (hi : f sIn = p) (ho : f sOut = q)
    (ki : Keeps sIn) (ko : Keeps sOut) {l1 l2 l3 l4 l5 : Nat} {d1 d2 d3 d4 d5 : Reg} {n1 n2 n3 n4 n5 : Nat} {o1 o2 o3 o4 o5 : Nat}
    (hl1 : l1 < 25) (hl2 : l2 < 25) (hl3 : l3 < 25) (hl4 : l4 < 25) (hl5 : l5 < 25)
    (k1 : Keeps d1) (k2 : Keeps d2) (k3 : Keeps d3) (k4 : Keeps d4) (k5 : Keeps d5)
    (ho1 : o1 < 25) (ho2 : o2 < 25) (ho3 : o3 < 25) (ho4 : o4 < 25) (ho5 : o5 < 25) {A : Lanes} (hA : lanes m p = A)
    {B : Lanes} (hB : lanes m q = B) :
    let b1 := Arm.V7.xorrol (Arm.ldrh A l1 hl1) (f d1) n1
    let b2 := Arm.V7.xorrol (Arm.ldrh A l2 hl2) (f d2) n2
    let b3 := Arm.V7.xorrol (Arm.ldrh A l3 hl3) (f d3) n3
    let b4 := Arm.V7.xorrol (Arm.ldrh A l4 hl4) (f d4) n4
    let b5 := Arm.V7.xorrol (Arm.ldrh A l5 hl5) (f d5) n5
    ∃ f' m', runL P adr (row sOut sIn l1 l2 l3 l4 l5 d1 d2 d3 d4 d5 n1 n2 n3 n4 n5 o1 o2 o3 o4 o5) f m = some (f', m') ∧
      lanes m' q = ((((B.set o1 (Arm.strh (Arm.V7.xandnot b1 b2 b3))).set o2 (Arm.strh (Arm.V7.xandnot b2 b3 b4))).set o3
        (Arm.strh (Arm.V7.xandnot b3 b4 b5))).set o4 (Arm.strh (Arm.V7.xandnot b4 b5 b1))).set o5 (Arm.strh (Arm.V7.xandnot b5 b1 b2)) ∧
      Only (In q 50) m m' ∧ (∀ r, Keeps r → r ≠ .r7 → f' r = f r) ∧ f' .r7 = f .r7 ^^^ Arm.V7.xandnot b5 b1 b2 := by
  subst hA
  subst hB
  obtain ⟨i1, i2, i3, i4, i5, i7⟩ := ki
  obtain ⟨j1, j2, j3, j4, j5, j7⟩ := ko
  obtain ⟨a1, a2, a3, a4, a5, a7⟩ := k1
  obtain ⟨b1, b2, b3, b4, b5, b7⟩ := k2
  obtain ⟨c1, c2, c3, c4, c5, c7⟩ := k3
  obtain ⟨e1, e2, e3, e4, e5, e7⟩ := k4
  obtain ⟨g1, g2, g3, g4, g5, g7⟩ := k5
  intro v1 v2 v3 v4 v5
  generalize hX : runL P adr (row sOut sIn l1 l2 l3 l4 l5 d1 d2 d3 d4 d5 n1 n2 n3 n4 n5 o1 o2 o3 o4 o5) f m = X
  simp only [row, List.append_assoc, List.cons_append, List.nil_append] at hX
  simp only [runL_nil, runL_log, runL_ldrhLane hp, runL_xorrol, runL_xandnot hq, set_apply, reduceCtorEq, if_false, if_true, i1, i2, i3, i4, i5, i7, j1, j2, j3, j4, j5, j7,
      a1, a2, a3, a4, a5, a7, b1, b2, b3, b4, b5, b7, c1, c2, c3, c4, c5, c7, e1, e2, e3, e4, e5, e7, g1, g2, g3, g4, g5, g7, ne_eq, not_false_eq_true,
      hi, ho, hl1, hl2, hl3, hl4, hl5, ho1, ho2, ho3, ho4, ho5, Op.val, Opd.val, Sh.val] at hX
  subst hX
  refine ⟨_, _, rfl, ?_, ?_, ?_, ?_⟩
  · rw [lanes_put16 _ _ ho5, lanes_put16 _ _ ho4, lanes_put16 _ _ ho3, lanes_put16 _ _ ho2, lanes_put16 _ _ ho1]
  · exact ((((only_lane m q ho1 _).trans (only_lane _ q ho2 _)).trans (only_lane _ q ho3 _)).trans
      (only_lane _ q ho4 _)).trans (only_lane _ q ho5 _)
  · rintro r ⟨x1, x2, x3, x4, x5, x6⟩ x7
    simp only [set_apply, x1, x2, x3, x4, x5, x6, x7, if_false]
  · simp only [set_apply, reduceCtorEq, if_false, if_true]; rfl

/-- The first part of a round: lines 112-118. -/
def theta (sIn : Reg) : List (Ins Label) :=
  xor5D .r1 .r2 sIn (0*2) (5*2) (10*2) (15*2) .r9 .r10 ++ xor5D .r3 .r4 sIn (2*2) (7*2) (12*2) (17*2) .r11 .r12 ++
  rolxor .r9 .r7 .r2 ++ rolxor .r10 .r1 .r3 ++ rolxor .r11 .r2 .r4 ++ rolxor .r12 .r3 .r7 ++ (rolxor .lr .r4 .r1 ++ [])

/-- The registers carried from round to round. -/
def carry (f : Reg → BitVec 32) : Arm.V7.Carry := ⟨f .r5, f .r7, f .r9, f .r10, f .r11, f .r12⟩

theorem runL_theta {p : BitVec 32} (hp : CanRead P p) {sIn : Reg} (hi : f sIn = p) (ki : sIn = .r0 ∨ sIn = .sp) :
    ∃ f', runL P adr (theta sIn) f m = some (f', m) ∧
      (f' .r9, f' .r10, f' .r11, f' .r12, f' .lr) = Arm.V7.prepTheta (lanes m p) (carry f) ∧
      f' .r0 = f .r0 ∧ f' .sp = f .sp ∧ f' .r5 = f .r5 ∧ f' .r7 = f .r7 ∧ f' .r8 = f .r8 := by
  generalize hX : runL P adr (theta sIn) f m = X
  simp only [theta, List.append_assoc] at hX
  rcases ki with rfl | rfl
  all_goals
    simp only [runL_nil, runL_xor5D hp, runL_rolxor, set_apply, reduceCtorEq, if_false, if_true, hi, ne_eq, not_false_eq_true, Nat.reduceLT, Nat.reduceAdd] at hX
    subst hX
    refine ⟨_, rfl, ?_, ?_, ?_, ?_, ?_, ?_⟩
    · simp only [set_apply, reduceCtorEq, if_false, if_true, Arm.V7.prepTheta, carry]
    all_goals simp only [set_apply, reduceCtorEq, if_false, hi]

/-- The row with the round constant: lines 121-138. -/
def firstRow (sOut sIn : Reg) : List (Ins Label) :=
  [.ldrh .r1 sIn (0*2), .ldrh .r2 sIn (6*2), .ldrh .r3 sIn (12*2), .ldrh .r4 sIn (18*2), .log .eor false .r1 .r1 (.reg .r9)] ++
  xorrol .r2 .r10 12 ++ xorrol .r3 .r11 11 ++ xorrol .r4 .r12 5 ++ xorrol .r5 .lr 14 ++ xandnot sOut (1*2) .r2 .r3 .r4 .r6 ++
  xandnot sOut (2*2) .r3 .r4 .r5 .r6 ++ xandnot sOut (3*2) .r4 .r5 .r1 .r6 ++ xandnot sOut (4*2) .r5 .r1 .r2 .r7 ++
  (xandnotRC sOut (0*2) .r1 .r2 .r3 ++ [])

theorem runL_firstRow {p q a : BitVec 32} (hp : CanRead P p) (hq : CanWrite P q) {sOut sIn : Reg} (hi : f sIn = p) (ho : f sOut = q)
    (hio : sOut = .sp ∧ sIn = .r0 ∨ sOut = .r0 ∧ sIn = .sp) (h8 : f .r8 = a) (hr : ∀ x, In a 2 x → P.rd x = true)
    (ha : a.toNat % 2 = 0) (haq : Sep a 2 q 50) {A : Lanes} (hA : lanes m p = A) {B : Lanes} (hB : lanes m q = B) :
    let b1 := Arm.ldrh A 0 ^^^ f .r9
    let b2 := Arm.V7.xorrol (Arm.ldrh A 6) (f .r10) 12
    let b3 := Arm.V7.xorrol (Arm.ldrh A 12) (f .r11) 11
    let b4 := Arm.V7.xorrol (Arm.ldrh A 18) (f .r12) 5
    let b5 := Arm.V7.xorrol (f .r5) (f .lr) 14
    ∃ f' m', runL P adr (firstRow sOut sIn) f m = some (f', m') ∧
      lanes m' q = ((((B.set 1 (Arm.strh (Arm.V7.xandnot b2 b3 b4))).set 2 (Arm.strh (Arm.V7.xandnot b3 b4 b5))).set 3
        (Arm.strh (Arm.V7.xandnot b4 b5 b1))).set 4 (Arm.strh (Arm.V7.xandnot b5 b1 b2))).set 0
        (Arm.strh (Arm.V7.xandnotRC b1 b2 b3 (get16 m a))) ∧
      Only (In q 50) m m' ∧ (∀ r, Keeps r → r ≠ .r7 → r ≠ .r8 → f' r = f r) ∧ f' .r7 = Arm.V7.xandnot b5 b1 b2 ∧
      f' .r8 = a + BitVec.ofNat 32 2 := by
  subst hA
  subst hB
  intro b1 b2 b3 b4 b5
  generalize hX : runL P adr (firstRow sOut sIn) f m = X
  simp only [firstRow, List.append_assoc, List.cons_append, List.nil_append] at hX
  have G : ∀ v1 v2 v3 v4, get16 (put16 (put16 (put16 (put16 m (q + BitVec.ofNat 32 (1 * 2)) v1) (q + BitVec.ofNat 32 (2 * 2)) v2)
      (q + BitVec.ofNat 32 (3 * 2)) v3) (q + BitVec.ofNat 32 (4 * 2)) v4) a = get16 m a := fun v1 v2 v3 v4 =>
    get16_only (((((only_lane m q (by decide) _).trans (only_lane _ q (by decide) _)).trans (only_lane _ q (by decide) _)).trans
      (only_lane _ q (by decide) _))) haq
  rcases hio with ⟨rfl, rfl⟩ | ⟨rfl, rfl⟩
  all_goals
    simp only [runL_ldrhLane hp, runL_log, runL_xorrol, runL_xandnot hq, set_apply, reduceCtorEq, if_false, if_true,
      ne_eq, not_false_eq_true, hi, ho, Nat.reduceLT, Op.val, Opd.val, Sh.val] at hX
    rw [runL_xandnotRC (a := a) hq (by simp only [set_apply, reduceCtorEq, if_false, ho]) (by simp) (by simp) (by simp) (by decide)
      (by simp only [set_apply, reduceCtorEq, if_false, h8]) hr ha] at hX
    simp only [runL_nil, set_apply, reduceCtorEq, if_false, if_true, G] at hX
    subst hX
    refine ⟨_, _, rfl, ?_, ?_, ?_, ?_, ?_⟩
    · rw [lanes_put16 _ _ (by decide), lanes_put16 _ _ (by decide), lanes_put16 _ _ (by decide), lanes_put16 _ _ (by decide),
        lanes_put16 _ _ (by decide)]
    · exact ((((only_lane m q (by decide) _).trans (only_lane _ q (by decide) _)).trans (only_lane _ q (by decide) _)).trans
        (only_lane _ q (by decide) _)).trans (only_lane _ q (by decide) _)
    · rintro r ⟨x1, x2, x3, x4, x5, x6⟩ x7 x8
      simp only [set_apply, x1, x2, x3, x4, x5, x6, x7, x8, if_false]
    · simp only [set_apply, reduceCtorEq, if_false, if_true]; rfl
    · simp only [set_apply, reduceCtorEq, if_false, if_true]

/-- The last row: lines 189-206. -/
def lastRow (sOut sIn : Reg) : List (Ins Label) :=
  [.ldrh .r1 sIn (2*2), .ldrh .r2 sIn (8*2), .ldrh .r3 sIn (14*2), .ldrh .r4 sIn (15*2), .ldrh .r5 sIn (21*2)] ++
  xorrol .r1 .r11 14 ++ xorrol .r2 .r12 7 ++ xorrol .r3 .lr 7 ++ xorrol .r4 .r9 9 ++ xorrol .r5 .r10 2 ++
  xandnot sOut (20*2) .r1 .r2 .r3 .r9 ++ xandnot sOut (21*2) .r2 .r3 .r4 .r10 ++ xandnot sOut (22*2) .r3 .r4 .r5 .r11 ++
  xandnot sOut (23*2) .r4 .r5 .r1 .r12 ++
  [.log .bic false .r1 .r2 (.reg .r1), .log .eor false .r5 .r5 (.reg .r1), .log .eor false .r7 .r7 (.reg .r5), .uxth .r7 .r7,
   .strh .r5 sOut (24*2), .uxth .r5 .r5]

theorem runL_lastRow {p q : BitVec 32} (hp : CanRead P p) (hq : CanWrite P q) {sOut sIn : Reg} (hi : f sIn = p) (ho : f sOut = q)
    (hio : sOut = .sp ∧ sIn = .r0 ∨ sOut = .r0 ∧ sIn = .sp) {A : Lanes} (hA : lanes m p = A) {B : Lanes} (hB : lanes m q = B) :
    let b1 := Arm.V7.xorrol (Arm.ldrh A 2) (f .r11) 14
    let b2 := Arm.V7.xorrol (Arm.ldrh A 8) (f .r12) 7
    let b3 := Arm.V7.xorrol (Arm.ldrh A 14) (f .lr) 7
    let b4 := Arm.V7.xorrol (Arm.ldrh A 15) (f .r9) 9
    let b5 := Arm.V7.xorrol (Arm.ldrh A 21) (f .r10) 2
    let s0 := Arm.V7.xandnot b1 b2 b3
    let s1 := Arm.V7.xandnot b2 b3 b4
    let s2 := Arm.V7.xandnot b3 b4 b5
    let s3 := Arm.V7.xandnot b4 b5 b1
    let s4 := b5 ^^^ (b2 &&& ~~~ b1)
    ∃ f' m', runL P adr (lastRow sOut sIn) f m = some (f', m') ∧
      lanes m' q = ((((B.set 20 (Arm.strh s0)).set 21 (Arm.strh s1)).set 22 (Arm.strh s2)).set 23 (Arm.strh s3)).set 24 (Arm.strh s4) ∧
      Only (In q 50) m m' ∧ carry f' = ⟨Arm.uxth s4, Arm.uxth (f .r7 ^^^ s4), s0, s1, s2, s3⟩ ∧
      f' .r0 = f .r0 ∧ f' .sp = f .sp ∧ f' .r8 = f .r8 := by
  subst hA
  subst hB
  intro b1 b2 b3 b4 b5 s0 s1 s2 s3 s4
  generalize hX : runL P adr (lastRow sOut sIn) f m = X
  simp only [lastRow, List.append_assoc, List.cons_append, List.nil_append] at hX
  rcases hio with ⟨rfl, rfl⟩ | ⟨rfl, rfl⟩
  all_goals
    simp only [runL_ldrhLane hp, runL_log, runL_uxth0, runL_xorrol, runL_xandnot hq, set_apply, reduceCtorEq, if_false, if_true,
      ne_eq, not_false_eq_true, hi, ho, Nat.reduceLT, Op.val, Opd.val, Sh.val] at hX
    rw [runL_strh (a := q + BitVec.ofNat 32 (24 * 2)) (by simp only [set_apply, reduceCtorEq, if_false, ho]) (may_sub hq.wr (by decide))
      (aligned2 hq.al _ (by decide))] at hX
    simp only [runL_nil, runL_uxth0, set_apply, reduceCtorEq, if_false, if_true] at hX
    subst hX
    refine ⟨_, _, rfl, ?_, ?_, ?_, ?_, ?_, ?_⟩
    · rw [lanes_put16 _ _ (by decide), lanes_put16 _ _ (by decide), lanes_put16 _ _ (by decide), lanes_put16 _ _ (by decide),
        lanes_put16 _ _ (by decide)]
      rfl
    · exact ((((only_lane m q (by decide) _).trans (only_lane _ q (by decide) _)).trans (only_lane _ q (by decide) _)).trans
        (only_lane _ q (by decide) _)).trans (only_lane _ q (by decide) _)
    · simp only [carry, set_apply, reduceCtorEq, if_false, if_true]; rfl
    all_goals simp only [set_apply, reduceCtorEq, if_false, hi, ho]

/-! ## The round -/

theorem sets25 (V : Vector (BitVec 16) 25) (v0 v1 v2 v3 v4 v5 v6 v7 v8 v9 v10 v11 v12 v13 v14 v15 v16 v17 v18 v19 v20 v21 v22 v23 v24 : BitVec 16) :
    ((((((((((((((((((((((((V.set 1 v1).set 2 v2).set 3 v3).set 4 v4).set 0 v0).set 5 v5).set 6 v6).set 7 v7).set 8 v8).set 9 v9).set 10 v10).set 11 v11).set 12 v12).set 13 v13).set 14 v14).set 15 v15).set 16 v16).set 17 v17).set 18 v18).set 19 v19).set 20 v20).set 21 v21).set 22 v22).set 23 v23).set 24 v24 =
      #v[v0, v1, v2, v3, v4, v5, v6, v7, v8, v9, v10, v11, v12, v13, v14, v15, v16, v17, v18, v19, v20, v21, v22, v23, v24] := by
  apply Vector.ext
  intro i hi
  have : i = 0 ∨ i = 1 ∨ i = 2 ∨ i = 3 ∨ i = 4 ∨ i = 5 ∨ i = 6 ∨ i = 7 ∨ i = 8 ∨ i = 9 ∨ i = 10 ∨ i = 11 ∨ i = 12 ∨ i = 13 ∨ i = 14 ∨ i = 15 ∨ i = 16 ∨ i = 17 ∨ i = 18 ∨ i = 19 ∨ i = 20 ∨ i = 21 ∨ i = 22 ∨ i = 23 ∨ i = 24 := by omega
  rcases this with rfl|rfl|rfl|rfl|rfl|rfl|rfl|rfl|rfl|rfl|rfl|rfl|rfl|rfl|rfl|rfl|rfl|rfl|rfl|rfl|rfl|rfl|rfl|rfl|rfl <;> simp [Vector.getElem_set]

theorem keccakRound_eq (sOut sIn : Reg) : keccakRound sOut sIn =
    theta sIn ++ (firstRow sOut sIn ++ (row sOut sIn 3 9 10 16 22 .r12 .lr .r9 .r10 .r11 12 4 3 13 13 5 6 7 8 9 ++
      (row sOut sIn 1 7 13 19 20 .r10 .r11 .r12 .lr .r9 1 6 9 8 2 10 11 12 13 14 ++ (row sOut sIn 4 5 11 17 23 .lr .r9 .r10 .r11 .r12 11 4 10 15 8 15 16 17 18 19 ++
        lastRow sOut sIn)))) := by
  unfold keccakRound theta row firstRow lastRow
  simp only [List.append_assoc, List.cons_append, List.nil_append, List.append_nil]

theorem runL_keccakRound {p q a : BitVec 32} (hp : CanRead P p) (hq : CanWrite P q) {sOut sIn : Reg} (hi : f sIn = p) (ho : f sOut = q)
    (hio : sOut = .sp ∧ sIn = .r0 ∨ sOut = .r0 ∧ sIn = .sp) (hpq : Sep p 50 q 50)
    (h8 : f .r8 = a) (hr : ∀ x, In a 2 x → P.rd x = true) (ha : a.toNat % 2 = 0) (haq : Sep a 2 q 50) :
    ∃ f' m', runL P adr (keccakRound sOut sIn) f m = some (f', m') ∧
      lanes m' q = (Arm.V7.round (get16 m a) (lanes m p) (carry f)).1 ∧ carry f' = (Arm.V7.round (get16 m a) (lanes m p) (carry f)).2 ∧
      Only (In q 50) m m' ∧ f' .r0 = f .r0 ∧ f' .sp = f .sp ∧ f' .r8 = a + BitVec.ofNat 32 2 := by
  have ki : Keeps sIn ∧ sIn ≠ .r7 ∧ sIn ≠ .r8 := by rcases hio with ⟨rfl, rfl⟩ | ⟨rfl, rfl⟩ <;> simp [Keeps]
  have ko : Keeps sOut ∧ sOut ≠ .r7 ∧ sOut ≠ .r8 := by rcases hio with ⟨rfl, rfl⟩ | ⟨rfl, rfl⟩ <;> simp [Keeps]
  have y0 : Keeps .r0 := by simp [Keeps]
  have y8 : Keeps .r8 := by simp [Keeps]
  have ys : Keeps .sp := by simp [Keeps]
  have y9 : Keeps .r9 := by simp [Keeps]
  have y10 : Keeps .r10 := by simp [Keeps]
  have y11 : Keeps .r11 := by simp [Keeps]
  have y12 : Keeps .r12 := by simp [Keeps]
  have yl : Keeps .lr := by simp [Keeps]
  obtain ⟨f0, e0, t0, g00, g0s, g05, g07, g08⟩ := runL_theta (adr := adr) (m := m) hp hi (by rcases hio with h | h <;> simp [h.2])
  have i0 : f0 sIn = p := by rcases hio with ⟨rfl, rfl⟩ | ⟨rfl, rfl⟩ <;> simp only [g00, g0s, hi]
  have j0 : f0 sOut = q := by rcases hio with ⟨rfl, rfl⟩ | ⟨rfl, rfl⟩ <;> simp only [g00, g0s, ho]
  obtain ⟨f1, m1, e1, b1, o1, g1, c1, d1⟩ := runL_firstRow (adr := adr) (m := m) hp hq i0 j0 hio (g08.trans h8) hr ha haq rfl rfl
  have a1 : lanes m1 p = lanes m p := lanes_only o1 hpq
  have i1 : f1 sIn = p := (g1 _ ki.1 ki.2.1 ki.2.2).trans i0
  have j1 : f1 sOut = q := (g1 _ ko.1 ko.2.1 ko.2.2).trans j0
  obtain ⟨f2, m2, e2, b2, o2, g2, c2⟩ := runL_row (adr := adr) (f := f1) (m := m1) hp hq i1 j1 ki.1 ko.1 (l1 := 3) (l2 := 9) (l3 := 10) (l4 := 16) (l5 := 22)
    (n1 := 12) (n2 := 4) (n3 := 3) (n4 := 13) (n5 := 13) (o1 := 5) (o2 := 6) (o3 := 7) (o4 := 8) (o5 := 9) (by decide) (by decide) (by decide) (by decide) (by decide) y12 yl y9 y10 y11
    (by decide) (by decide) (by decide) (by decide) (by decide) a1 b1
  have a2 : lanes m2 p = lanes m p := (lanes_only o2 hpq).trans a1
  have i2 : f2 sIn = p := (g2 _ ki.1 ki.2.1).trans i1
  have j2 : f2 sOut = q := (g2 _ ko.1 ko.2.1).trans j1
  obtain ⟨f3, m3, e3, b3, o3, g3, c3⟩ := runL_row (adr := adr) (f := f2) (m := m2) hp hq i2 j2 ki.1 ko.1 (l1 := 1) (l2 := 7) (l3 := 13) (l4 := 19) (l5 := 20)
    (n1 := 1) (n2 := 6) (n3 := 9) (n4 := 8) (n5 := 2) (o1 := 10) (o2 := 11) (o3 := 12) (o4 := 13) (o5 := 14) (by decide) (by decide) (by decide) (by decide) (by decide) y10 y11 y12 yl y9
    (by decide) (by decide) (by decide) (by decide) (by decide) a2 b2
  have a3 : lanes m3 p = lanes m p := (lanes_only o3 hpq).trans a2
  have i3 : f3 sIn = p := (g3 _ ki.1 ki.2.1).trans i2
  have j3 : f3 sOut = q := (g3 _ ko.1 ko.2.1).trans j2
  obtain ⟨f4, m4, e4, b4, o4, g4, c4⟩ := runL_row (adr := adr) (f := f3) (m := m3) hp hq i3 j3 ki.1 ko.1 (l1 := 4) (l2 := 5) (l3 := 11) (l4 := 17) (l5 := 23)
    (n1 := 11) (n2 := 4) (n3 := 10) (n4 := 15) (n5 := 8) (o1 := 15) (o2 := 16) (o3 := 17) (o4 := 18) (o5 := 19) (by decide) (by decide) (by decide) (by decide) (by decide) yl y9 y10 y11 y12
    (by decide) (by decide) (by decide) (by decide) (by decide) a3 b3
  have a4 : lanes m4 p = lanes m p := (lanes_only o4 hpq).trans a3
  have i4 : f4 sIn = p := (g4 _ ki.1 ki.2.1).trans i3
  have j4 : f4 sOut = q := (g4 _ ko.1 ko.2.1).trans j3
  have k2 : ∀ r, Keeps r → r ≠ .r7 → f2 r = f1 r := g2
  have k3 : ∀ r, Keeps r → r ≠ .r7 → f3 r = f1 r := fun r h h' => (g3 r h h').trans (k2 r h h')
  have k4 : ∀ r, Keeps r → r ≠ .r7 → f4 r = f1 r := fun r h h' => (g4 r h h').trans (k3 r h h')
  obtain ⟨f5, m5, e5, b5, o5, c5, d50, d5s, d58⟩ := runL_lastRow (adr := adr) hp hq i4 j4 hio a4 b4
  have q9 : f1 .r9 = f0 .r9 := g1 _ y9 (by simp) (by simp)
  have q10 : f1 .r10 = f0 .r10 := g1 _ y10 (by simp) (by simp)
  have q11 : f1 .r11 = f0 .r11 := g1 _ y11 (by simp) (by simp)
  have q12 : f1 .r12 = f0 .r12 := g1 _ y12 (by simp) (by simp)
  have ql : f1 .lr = f0 .lr := g1 _ yl (by simp) (by simp)
  have u2 : f2 .r9 = f0 .r9 ∧ f2 .r10 = f0 .r10 ∧ f2 .r11 = f0 .r11 ∧ f2 .r12 = f0 .r12 ∧ f2 .lr = f0 .lr :=
    ⟨(k2 _ y9 (by simp)).trans q9, (k2 _ y10 (by simp)).trans q10, (k2 _ y11 (by simp)).trans q11, (k2 _ y12 (by simp)).trans q12,
      (k2 _ yl (by simp)).trans ql⟩
  have u3 : f3 .r9 = f0 .r9 ∧ f3 .r10 = f0 .r10 ∧ f3 .r11 = f0 .r11 ∧ f3 .r12 = f0 .r12 ∧ f3 .lr = f0 .lr :=
    ⟨(k3 _ y9 (by simp)).trans q9, (k3 _ y10 (by simp)).trans q10, (k3 _ y11 (by simp)).trans q11, (k3 _ y12 (by simp)).trans q12,
      (k3 _ yl (by simp)).trans ql⟩
  have u4 : f4 .r9 = f0 .r9 ∧ f4 .r10 = f0 .r10 ∧ f4 .r11 = f0 .r11 ∧ f4 .r12 = f0 .r12 ∧ f4 .lr = f0 .lr :=
    ⟨(k4 _ y9 (by simp)).trans q9, (k4 _ y10 (by simp)).trans q10, (k4 _ y11 (by simp)).trans q11, (k4 _ y12 (by simp)).trans q12,
      (k4 _ yl (by simp)).trans ql⟩
  obtain ⟨u29, u210, u211, u212, u2l⟩ := u2
  obtain ⟨u39, u310, u311, u312, u3l⟩ := u3
  obtain ⟨u49, u410, u411, u412, u4l⟩ := u4
  refine ⟨f5, m5, ?_, ?_, ?_, ?_, ?_, ?_, ?_⟩
  · rw [keccakRound_eq]
    exact runL_trans e0 (runL_trans e1 (runL_trans e2 (runL_trans e3 (runL_trans e4 e5))))
  · rw [b5, sets25]
    simp only [q9, q10, q11, q12, ql, u29, u210, u211, u212, u2l, u39, u310, u311, u312, u3l, u49, u410, u411, u412, u4l, g05]
    rw [Arm.V7.round, ← t0]
    rfl
  · rw [c5, c4, c3, c2, c1]
    simp only [q9, q10, q11, q12, ql, u29, u210, u211, u212, u2l, u39, u310, u311, u312, u3l, u49, u410, u411, u412, u4l, g05]
    rw [Arm.V7.round, ← t0]
    rfl
  · exact (((o1.trans o2).trans o3).trans o4).trans o5
  · rw [d50, k4 _ y0 (by simp), g1 _ y0 (by simp) (by simp), g00]
  · rw [d5s, k4 _ ys (by simp), g1 _ ys (by simp) (by simp), g0s]
  · rw [d58, k4 _ y8 (by simp), d1]

end Model.KeccakAsm.V7
