import Verif.Proof.KeccakAsm6Round
/-!
# The permutation routines of `KeccakP-400-armv6m-le-gcc.s`
-/

set_option linter.unusedSimpArgs false

namespace Model.KeccakAsm.V6
open C.Thumb Spec Model.K128

variable {P : Plat} {adr : Label → BitVec 32} {f : Reg → BitVec 32} {m : BitVec 32 → Byte} {is : List (Ins Label)}

/-! ## The program -/

/-- Lines 444-451. -/
def codeDone : List (Item Label) :=
  [.ins (.add false .sp .sp (.imm (25*2 + 6))),
   .ins (.pop [.r1, .r2, .r3, .r4, .r5, .r7]), .ins (.mov false .r8 (.reg .r1)), .ins (.mov false .r9 (.reg .r2)),
   .ins (.mov false .r10 (.reg .r3)), .ins (.mov false .r11 (.reg .r4)), .ins (.mov false .r12 (.reg .r5)),
   .ins (.popPc [.r4, .r5, .r6])]

/-- Lines 437-443. -/
def codeTail : List (Item Label) :=
  [.ins (.add true .r7 .r7 (.imm 4)), .ins (.ldrh .r1 .r7 0), .ins (.cmp .r1 (.imm 0xFF)), .ins (.beq .permuteDone),
   .ins (.b .permuteRoundLoop), .lab .permuteDone] ++ codeDone

/-- Lines 436-451. -/
def codeOdd : List (Item Label) := (keccakRound .r0 .r6 2).map .ins ++ codeTail

/-- Lines 433-451. -/
def codeLoop : List (Item Label) :=
  .ins (.mov false .r8 (.reg .r7)) :: ((keccakRound .r6 .r0 0).map .ins ++ (.lab .permuteRoundOdd :: codeOdd))

theorem target_loop : target prog .permuteRoundLoop = codeLoop := by
  simp only [prog, staticInitialize, init, addByte, addBytes, overwriteBytes, overwriteWithZeroes, extractBytes, extractAndAddBytes,
    permuteNrounds, permute20rounds, List.append_assoc, List.cons_append, List.nil_append, target, reduceCtorEq, if_false, if_true]
  rfl

theorem target_odd : target prog .permuteRoundOdd = codeOdd := by
  simp only [prog, staticInitialize, init, addByte, addBytes, overwriteBytes, overwriteWithZeroes, extractBytes, extractAndAddBytes,
    permuteNrounds, permute20rounds, List.append_assoc, List.cons_append, List.nil_append, target, reduceCtorEq, if_false, if_true, target_map]
  rfl

theorem target_done : target prog .permuteDone = codeDone := by
  simp only [prog, staticInitialize, init, addByte, addBytes, overwriteBytes, overwriteWithZeroes, extractBytes, extractAndAddBytes,
    permuteNrounds, permute20rounds, List.append_assoc, List.cons_append, List.nil_append, target, reduceCtorEq, if_false, if_true, target_map]
  rfl

/-! ## The loop -/

/-- The memory during the call: the state at `p`, the stack from `b` on, the table at `t`. -/
structure Ctx (P : Plat) (b p t : BitVec 32) (m0 : BitVec 32 → Byte) : Prop where
  rdP : ∀ a, In p 50 a → P.rd a = true
  wrP : ∀ a, In p 50 a → P.wr a = true
  alP : p.toNat % 4 = 0
  rdB : ∀ a, In b 100 a → P.rd a = true
  wrB : ∀ a, In b 100 a → P.wr a = true
  alB : b.toNat % 4 = 0
  rdT : ∀ a, In t 42 a → P.rd a = true
  alT : t.toNat % 2 = 0
  tab : ∀ i < 21, get16 m0 (t + BitVec.ofNat 32 (2 * i)) = table.getD i 0
  sepPB : Sep p 50 b 100
  sepTP : Sep t 42 p 50
  sepTB : Sep t 42 b 100

section
variable {b p t : BitVec 32} {m0 : BitVec 32 → Byte}

/-- What the rounds write. -/
def Wr (b p : BitVec 32) (x : BitVec 32) : Prop := In p 50 x ∨ In b 54 x

theorem frame_sub (b : BitVec 32) : b + BitVec.ofNat 32 4 - 4 = b := BitVec.add_sub_cancel _ _

theorem sepBQ (b : BitVec 32) : Sep b 4 (b + BitVec.ofNat 32 4) 50 := by
  have := sep_offsets b (i := 0) (n := 4) (j := 4) (k := 50) (.inl (by decide)) (by decide) (by decide)
  rwa [show b + BitVec.ofNat 32 0 = b from BitVec.add_zero b] at this

theorem Ctx.push (C : Ctx P b p t m0) : CanPush P (b + BitVec.ofNat 32 4) where
  rd := fun a ha => C.rdB a (in_mono (n := 4) (by decide) (by rwa [frame_sub] at ha))
  wr := fun a ha => C.wrB a (in_mono (n := 4) (by decide) (by rwa [frame_sub] at ha))
  al := add_four' C.alB (by decide)

theorem Ctx.readP (C : Ctx P b p t m0) : CanRead P p := ⟨C.rdP, four_even C.alP⟩
theorem Ctx.writeP (C : Ctx P b p t m0) : CanWrite P p := ⟨C.wrP, four_even C.alP⟩
theorem Ctx.readQ (C : Ctx P b p t m0) : CanRead P (b + BitVec.ofNat 32 4) :=
  ⟨fun a ha => C.rdB a (in_add (by decide) ha), four_even (add_four' C.alB (by decide))⟩
theorem Ctx.writeQ (C : Ctx P b p t m0) : CanWrite P (b + BitVec.ofNat 32 4) :=
  ⟨fun a ha => C.wrB a (in_add (by decide) ha), four_even (add_four' C.alB (by decide))⟩

theorem Ctx.sepPQ (C : Ctx P b p t m0) : Sep p 50 (b + BitVec.ofNat 32 4) 50 := fun a h1 h2 => C.sepPB a h1 (in_add (by decide) h2)

theorem Ctx.tabAt (C : Ctx P b p t m0) {m : BitVec 32 → Byte} (h : Only (Wr b p) m0 m) {i : Nat} (hi : i < 21) :
    get16 m (t + BitVec.ofNat 32 (2 * i)) = table.getD i 0 := by
  rw [get16_only h, C.tab i hi]
  rintro x hx (h1 | h1)
  · exact C.sepTP x (in_add (by omega) hx) h1
  · exact C.sepTB x (in_add (by omega) hx) (in_mono (by decide) h1)

theorem table_rc : ∀ i < 20, table.getD i 0 = Keccak.rc i ∧ table.getD i 0 ≠ 0xFF := by decide

theorem round_spec {i : Nat} (hi : i < 20) (A : Lanes) : Arm.V6.round (table.getD i 0) A = Keccak.round i A := by
  rw [Arm.V6.round_eq, (table_rc i hi).1, flat_eq]

/-- The machine in the loop. -/
structure Inv (b p : BitVec 32) (m0 : BitVec 32 → Byte) (f : Reg → BitVec 32) (m : BitVec 32 → Byte) : Prop where
  r0 : f .r0 = p
  r6 : f .r6 = b + BitVec.ofNat 32 4
  sp : f .sp = b + BitVec.ofNat 32 4
  only : Only (Wr b p) m0 m

theorem safe0 : Safe .r0 := by simp [Safe, Keeps]
theorem safe6 : Safe .r6 := by simp [Safe, Keeps]
theorem safe8 : Safe .r8 := by simp [Safe, Keeps]
theorem safeSp : Safe .sp := by simp [Safe, Keeps]

theorem even_step (C : Ctx P b p t m0) {i : Nat} (hi : i < 20) (h : Inv b p m0 f m) (h7 : f .r7 = t + BitVec.ofNat 32 (2 * i)) (z c : Bool) :
    ∃ f' m' z' c', Reaches P adr prog (.run codeLoop ⟨f, m, z, c⟩) (.run codeOdd ⟨f', m', z', c'⟩) ∧ Inv b p m0 f' m' ∧
      f' .r8 + BitVec.ofNat 32 2 = t + BitVec.ofNat 32 (2 * (i + 1)) ∧
      lanes m' (b + BitVec.ofNat 32 4) = Keccak.round i (lanes m p) := by
  have hs_r0 : set f .r8 (t + BitVec.ofNat 32 (2 * i)) .r0 = f .r0 := rfl
  have hs_r6 : set f .r8 (t + BitVec.ofNat 32 (2 * i)) .r6 = f .r6 := rfl
  have hs_sp : set f .r8 (t + BitVec.ofNat 32 (2 * i)) .sp = f .sp := rfl
  have h8 : set f .r8 (t + BitVec.ofNat 32 (2 * i)) .r8 = t + BitVec.ofNat 32 (2 * i) := if_pos rfl
  obtain ⟨f', m', e, l, o, g, -⟩ := runL_keccakRound (adr := adr) (m := m) (sOut := .r6) (sIn := .r0)
    (f := set f .r8 (t + BitVec.ofNat 32 (2 * i))) (a := t + BitVec.ofNat 32 (2 * i)) (rco := 0)
    C.readP C.writeQ (hs_r0.trans h.r0) (hs_r6.trans h.r6) (.inl ⟨rfl, rfl⟩) C.push
    (hs_sp.trans h.sp) (by rw [frame_sub]; exact fun a h1 h2 => C.sepPB a h2 (in_mono (by decide) h1)) C.sepPQ
    (by rw [h8]; exact BitVec.add_zero _) (fun x hx => C.rdT x (in_add (by omega) hx)) (add_even C.alT (by omega))
    (fun x h1 h2 => C.sepTB x (in_add (by omega) h1) (in_add (by decide) h2))
    (by rw [frame_sub]; exact fun x h1 h2 => C.sepTB x (in_add (by omega) h1) (in_mono (by decide) h2))
  obtain ⟨z', c', hr⟩ := reaches_block (prog := prog) e (zf false (t + BitVec.ofNat 32 (2 * i)) z) c (.lab .permuteRoundOdd :: codeOdd)
  refine ⟨f', m', z', c', ?_, ⟨?_, ?_, ?_, ?_⟩, ?_, ?_⟩
  · refine ((Reaches.one ?_).trans hr).trans (Reaches.one rfl)
    have : (Opd.reg Reg.r7).val f = t + BitVec.ofNat 32 (2 * i) := h7
    rw [codeLoop, step_ins (s' := ⟨set f .r8 (t + BitVec.ofNat 32 (2 * i)), m, zf false (t + BitVec.ofNat 32 (2 * i)) z, c⟩)]
    rw [exec1, this]
  · rw [g _ safe0, hs_r0, h.r0]
  · rw [g _ safe6, hs_r6, h.r6]
  · rw [g _ safeSp, hs_sp, h.sp]
  · refine h.only.trans (o.mono ?_)
    rintro x (h1 | h1)
    · exact .inr (in_add (by decide) h1)
    · rw [frame_sub] at h1; exact .inr (in_mono (by decide) h1)
  · rw [g _ safe8, h8, add_add]; rfl
  · rw [l, C.tabAt h.only (by omega), round_spec hi]

theorem odd_step (C : Ctx P b p t m0) {i : Nat} (hi : i < 20) (h : Inv b p m0 f m)
    (h8 : f .r8 + BitVec.ofNat 32 2 = t + BitVec.ofNat 32 (2 * i)) (z c : Bool) :
    ∃ f' m' z' c', Reaches P adr prog (.run codeOdd ⟨f, m, z, c⟩) (.run (if i = 19 then codeDone else codeLoop) ⟨f', m', z', c'⟩) ∧
      Inv b p m0 f' m' ∧ f' .r7 = t + BitVec.ofNat 32 (2 * (i + 1)) ∧
      lanes m' p = Keccak.round i (lanes m (b + BitVec.ofNat 32 4)) := by
  obtain ⟨f1, m1, e, l, o, g, g7⟩ := runL_keccakRound (adr := adr) (m := m) (sOut := .r0) (sIn := .r6)
    (f := f) (a := t + BitVec.ofNat 32 (2 * i)) (rco := 2)
    C.readQ C.writeP h.r6 h.r0 (.inr ⟨rfl, rfl⟩) C.push
    h.sp (by rw [frame_sub]; exact sepBQ b) C.sepPQ.symm
    h8 (fun x hx => C.rdT x (in_add (by omega) hx)) (add_even C.alT (by omega))
    (fun x h1 h2 => C.sepTP x (in_add (by omega) h1) h2)
    (by rw [frame_sub]; exact fun x h1 h2 => C.sepTB x (in_add (by omega) h1) (in_mono (by decide) h2))
  have o1 : Only (Wr b p) m0 m1 := by
    refine h.only.trans (o.mono ?_)
    rintro x (h1 | h1)
    · exact .inl h1
    · rw [frame_sub] at h1; exact .inr (in_mono (by decide) h1)
  have hr7 : f1 .r7 + BitVec.ofNat 32 4 = t + BitVec.ofNat 32 (2 * (i + 1)) := by
    rw [g7, show (4 : Nat) = 2 + 2 from rfl, ← add_add, h8, add_add]; rfl
  have hc : get16 m1 (t + BitVec.ofNat 32 (2 * (i + 1))) = table.getD (i + 1) 0 := C.tabAt o1 (by omega)
  have e2 : runL P adr [.add true .r7 .r7 (.imm 4), .ldrh .r1 .r7 0] f1 m1 =
      some (set (set f1 .r7 (t + BitVec.ofNat 32 (2 * (i + 1)))) .r1 ((table.getD (i + 1) 0).setWidth 32), m1) := by
    rw [runL_add, runL_ldrh (a := t + BitVec.ofNat 32 (2 * (i + 1))) _ (may_sub C.rdT (by omega)) (aligned2 C.alT _ (by omega)), runL_nil, hc]
    · simp only [Opd.val, hr7]
    · simp only [Opd.val, hr7, set_apply, if_true]; exact BitVec.add_zero _
  obtain ⟨z1, c1, r1⟩ := reaches_block (prog := prog) e z c codeTail
  obtain ⟨z2, c2, r2⟩ := reaches_block (prog := prog) e2 z1 c1
    ([.ins (.cmp .r1 (.imm 0xFF)), .ins (.beq .permuteDone), .ins (.b .permuteRoundLoop), .lab .permuteDone] ++ codeDone)
  generalize hf2 : set (set f1 .r7 (t + BitVec.ofNat 32 (2 * (i + 1)))) .r1 ((table.getD (i + 1) 0).setWidth 32) = f2 at r2
  have hz : (f2 .r1 - (Opd.imm 0xFF).val f2 == 0) = decide (i = 19) := by
    have : ∀ i < 20, ((table.getD (i + 1) 0).setWidth 32 - BitVec.ofNat 32 0xFF == 0) = decide (i = 19) := by decide
    rw [← this i hi, ← hf2]; rfl
  have r3 : Reaches P adr prog (.run ([.ins (.cmp .r1 (.imm 0xFF)), .ins (.beq .permuteDone), .ins (.b .permuteRoundLoop),
      .lab .permuteDone] ++ codeDone) ⟨f2, m1, z2, c2⟩) (.run (if i = 19 then codeDone else codeLoop)
      ⟨f2, m1, decide (i = 19), decide (((Opd.imm 0xFF).val f2).toNat ≤ (f2 .r1).toNat)⟩) := by
    refine .step (.step ?_)
    show Reaches P adr prog (.run (if (f2 .r1 - (Opd.imm 0xFF).val f2 == 0) then target prog .permuteDone else _)
      ⟨f2, m1, (f2 .r1 - (Opd.imm 0xFF).val f2 == 0), _⟩) _
    rw [hz]
    by_cases h19 : i = 19
    · simp only [h19, decide_true, if_true, target_done]
      exact .refl _
    · simp only [h19, decide_false, if_false, Bool.false_eq_true]
      refine .step ?_
      show Reaches P adr prog (.run (target prog .permuteRoundLoop) _) _
      rw [target_loop]
      exact .refl _
  refine ⟨f2, m1, _, _, (r1.trans r2).trans r3, ⟨?_, ?_, ?_, o1⟩, ?_, ?_⟩
  · rw [← hf2]; exact (g _ safe0).trans h.r0
  · rw [← hf2]; exact (g _ safe6).trans h.r6
  · rw [← hf2]; exact (g _ safeSp).trans h.sp
  · rw [← hf2]; rfl
  · rw [l, C.tabAt h.only (by omega), round_spec hi]

/-- From the label `KeccakP400_Permute_RoundOdd` to the end of the loop. -/
theorem loop (C : Ctx P b p t m0) : ∀ (k i : Nat), i + (2 * k + 1) = 20 → ∀ f m z c, Inv b p m0 f m →
    f .r8 + BitVec.ofNat 32 2 = t + BitVec.ofNat 32 (2 * i) →
    ∃ f' m' z' c', Reaches P adr prog (.run codeOdd ⟨f, m, z, c⟩) (.run codeDone ⟨f', m', z', c'⟩) ∧ Inv b p m0 f' m' ∧
      lanes m' p = Keccak.rounds i (2 * k + 1) (lanes m (b + BitVec.ofNat 32 4)) := by
  intro k
  induction k with
  | zero =>
    intro i hk f m z c h h8
    obtain ⟨f1, m1, z1, c1, r1, I1, -, l1⟩ := odd_step (adr := adr) C (by omega) h h8 z c
    rw [if_pos (by omega)] at r1
    exact ⟨f1, m1, z1, c1, r1, I1, l1⟩
  | succ k ih =>
    intro i hk f m z c h h8
    obtain ⟨f1, m1, z1, c1, r1, I1, h7, l1⟩ := odd_step (adr := adr) C (by omega) h h8 z c
    rw [if_neg (by omega)] at r1
    obtain ⟨f2, m2, z2, c2, r2, I2, h8', l2⟩ := even_step (adr := adr) C (by omega) I1 h7 z1 c1
    obtain ⟨f3, m3, z3, c3, r3, I3, l3⟩ := ih (i + 1 + 1) (by omega) f2 m2 z2 c2 I2 h8'
    refine ⟨f3, m3, z3, c3, (r1.trans r2).trans r3, I3, ?_⟩
    rw [l3, l2, l1]
    rfl

end


/-! ## Entry and exit -/

section
variable {b p t : BitVec 32} {m0 : BitVec 32 → Byte} {F : Reg → BitVec 32}

/-- The registers saved on the stack. -/
structure Saved (b : BitVec 32) (F : Reg → BitVec 32) (m : BitVec 32 → Byte) : Prop where
  r8 : get32 m (b + BitVec.ofNat 32 60) = F .r8
  r9 : get32 m (b + BitVec.ofNat 32 64) = F .r9
  r10 : get32 m (b + BitVec.ofNat 32 68) = F .r10
  r11 : get32 m (b + BitVec.ofNat 32 72) = F .r11
  r12 : get32 m (b + BitVec.ofNat 32 76) = F .r12
  r7 : get32 m (b + BitVec.ofNat 32 80) = F .r7
  r4 : get32 m (b + BitVec.ofNat 32 84) = F .r4
  r5 : get32 m (b + BitVec.ofNat 32 88) = F .r5
  r6 : get32 m (b + BitVec.ofNat 32 92) = F .r6
  lr : get32 m (b + BitVec.ofNat 32 96) = F .lr

theorem Saved.only {m m' : BitVec 32 → Byte} (S : Saved b F m) (hs : Sep p 50 b 100) (h : Only (Wr b p) m m') : Saved b F m' := by
  have key : ∀ k, 60 ≤ k → k + 4 ≤ 100 → get32 m' (b + BitVec.ofNat 32 k) = get32 m (b + BitVec.ofNat 32 k) := by
    intro k h1 h2
    refine get32_only h ?_
    rintro x hx (h3 | h3)
    · exact hs x h3 (in_add h2 hx)
    · have := sep_offsets b (i := 0) (n := 54) (j := k) (k := 4) (.inl (by omega)) (by decide) (by omega)
      rw [show b + BitVec.ofNat 32 0 = b from BitVec.add_zero b] at this
      exact this x h3 hx
  have k' : ∀ k, 60 ≤ k → k + 4 ≤ 100 → ∀ v, get32 m (b + BitVec.ofNat 32 k) = v → get32 m' (b + BitVec.ofNat 32 k) = v :=
    fun k h1 h2 v h => (key k h1 h2).trans h
  exact ⟨k' _ (by decide) (by decide) _ S.r8, k' _ (by decide) (by decide) _ S.r9, k' _ (by decide) (by decide) _ S.r10,
    k' _ (by decide) (by decide) _ S.r11, k' _ (by decide) (by decide) _ S.r12, k' _ (by decide) (by decide) _ S.r7,
    k' _ (by decide) (by decide) _ S.r4, k' _ (by decide) (by decide) _ S.r5, k' _ (by decide) (by decide) _ S.r6,
    k' _ (by decide) (by decide) _ S.lr⟩

theorem epilogue (hrd : ∀ a, In b 100 a → P.rd a = true) (hal : b.toNat % 4 = 0) (S : Saved b F m) (hF : F .sp = b + BitVec.ofNat 32 100)
    (hsp : f .sp = b + BitVec.ofNat 32 4) (z c : Bool) :
    ∃ f' z' c', Reaches P adr prog (.run codeDone ⟨f, m, z, c⟩) (.ret (F .lr) ⟨f', m, z', c'⟩) ∧ Back F f' := by
  have e : ∃ f1, runL P adr [.add false .sp .sp (.imm (25*2 + 6)), .pop [.r1, .r2, .r3, .r4, .r5, .r7], .mov false .r8 (.reg .r1),
      .mov false .r9 (.reg .r2), .mov false .r10 (.reg .r3), .mov false .r11 (.reg .r4), .mov false .r12 (.reg .r5)] f m = some (f1, m) ∧
      f1 .sp = b + BitVec.ofNat 32 84 ∧ f1 .r7 = F .r7 ∧ f1 .r8 = F .r8 ∧ f1 .r9 = F .r9 ∧ f1 .r10 = F .r10 ∧ f1 .r11 = F .r11 ∧
      f1 .r12 = F .r12 := by
    rw [runL_add, runL_pop (a := b + BitVec.ofNat 32 60) _ (may_sub hrd (by decide)) (aligned4' hal _ (by decide) _)]
    · simp only [runL_mov, runL_nil]
      refine ⟨_, rfl, ?_⟩
      simp only [loadRegs, add_four, add_add, Nat.reduceAdd, Opd.val, Sh.val, set_apply, reduceCtorEq, if_false, if_true, List.length_cons,
        List.length_nil, Nat.reduceMul, S.r7, S.r8, S.r9, S.r10, S.r11, S.r12, and_self]
    · simp only [set_apply, if_true, Opd.val, hsp, add_add]
  obtain ⟨f1, e, hs1, h7, h8, h9, h10, h11, h12⟩ := e
  obtain ⟨z', c', r⟩ := reaches_block (prog := prog) e z c [.ins (.popPc [.r4, .r5, .r6])]
  refine ⟨set (loadRegs m (f1 .sp) [.r4, .r5, .r6] f1) .sp (f1 .sp + BitVec.ofNat 32 16), z', c', r.trans (.one ?_), ?_⟩
  · rw [step]
    have h1 : may P.rd (f1 .sp) (4 * [Reg.r4, .r5, .r6].length + 4) = true := by rw [hs1]; exact may_sub hrd (by decide)
    have h2 : aligned true (f1 .sp) 4 = true := by rw [hs1]; exact aligned4' hal _ (by decide) _
    simp only [h1, h2, Bool.and_true, if_true]
    have h3 : get32 m (f1 .sp + BitVec.ofNat 32 (4 * [Reg.r4, .r5, .r6].length)) = F .lr := by rw [hs1, add_add]; exact S.lr
    rw [h3]
    rfl
  · constructor <;> simp only [hs1, loadRegs, add_four, add_add, Nat.reduceAdd, set_apply, reduceCtorEq, if_false, if_true, h7, h8, h9, h10,
      h11, h12, hF, S.r4, S.r5, S.r6]

/-- Lines 359-367 and 397-405. -/
def entry : List (Ins Label) :=
  [.push [.r4, .r5, .r6, .lr], .mov false .r2 (.reg .r8), .mov false .r3 (.reg .r9), .mov false .r4 (.reg .r10), .mov false .r5 (.reg .r11),
   .mov false .r6 (.reg .r12), .push [.r2, .r3, .r4, .r5, .r6, .r7], .sub false .sp .sp (.imm (25*2 + 6)), .mov false .r6 (.reg .sp)]

theorem runL_entry (hwr : ∀ a, In b 100 a → P.wr a = true) (hal : b.toNat % 4 = 0) (hF : F .sp = b + BitVec.ofNat 32 100) :
    ∃ f' m', runL P adr entry F m = some (f', m') ∧ Saved b F m' ∧ Only (In b 100) m m' ∧ f' .r0 = F .r0 ∧ f' .r1 = F .r1 ∧
      f' .r6 = b + BitVec.ofNat 32 4 ∧ f' .sp = b + BitVec.ofNat 32 4 := by
  generalize hX : runL P adr entry F m = X
  rw [entry, runL_push (a := b + BitVec.ofNat 32 84) (by rw [hF]; exact add_sub_frame b (by decide)) (may_sub hwr (by decide))
    (aligned4' hal _ (by decide) _)] at hX
  have o1 := only_storeRegs F [.r4, .r5, .r6, .lr] (b + BitVec.ofNat 32 84) m
  have g1 := get32_storeRegs F [.r4, .r5, .r6, .lr] (b + BitVec.ofNat 32 84) m
  generalize storeRegs F (b + BitVec.ofNat 32 84) [.r4, .r5, .r6, .lr] m = m1 at o1 g1 hX
  simp only [runL_mov] at hX
  rw [runL_push (a := b + BitVec.ofNat 32 60) (by simp only [set_apply, reduceCtorEq, if_false, if_true]; exact add_sub_frame b (by decide))
    (may_sub hwr (by decide)) (aligned4' hal _ (by decide) _)] at hX
  generalize hf1 : set (set (set (set (set (set F .sp _) .r2 _) .r3 _) .r4 _) .r5 _) .r6 _ = f1 at hX
  have o2 := only_storeRegs f1 [.r2, .r3, .r4, .r5, .r6, .r7] (b + BitVec.ofNat 32 60) m1
  have g2 := get32_storeRegs f1 [.r2, .r3, .r4, .r5, .r6, .r7] (b + BitVec.ofNat 32 60) m1
  generalize storeRegs f1 (b + BitVec.ofNat 32 60) [.r2, .r3, .r4, .r5, .r6, .r7] m1 = m2 at o2 g2 hX
  simp only [runL_sub, runL_mov, runL_nil] at hX
  subst hX
  have k1 : ∀ k < 4, get32 m2 (b + BitVec.ofNat 32 (84 + 4 * k)) = get32 m1 (b + BitVec.ofNat 32 (84 + 4 * k)) := fun k hk =>
    get32_only o2 (sep_offsets b (.inr (by simp only [List.length_cons, List.length_nil]; omega)) (by omega) (by decide))
  refine ⟨_, _, rfl, ?_, ?_, ?_, ?_, ?_, ?_⟩
  · have a0 := g2 0 (by decide) (by decide)
    have a1 := g2 1 (by decide) (by decide)
    have a2 := g2 2 (by decide) (by decide)
    have a3 := g2 3 (by decide) (by decide)
    have a4 := g2 4 (by decide) (by decide)
    have a5 := g2 5 (by decide) (by decide)
    have b0 := (k1 0 (by decide)).trans ((congrArg _ (add_add _ _ _).symm).trans (g1 0 (by decide) (by decide)))
    have b1 := (k1 1 (by decide)).trans ((congrArg _ (add_add _ _ _).symm).trans (g1 1 (by decide) (by decide)))
    have b2 := (k1 2 (by decide)).trans ((congrArg _ (add_add _ _ _).symm).trans (g1 2 (by decide) (by decide)))
    have b3 := (k1 3 (by decide)).trans ((congrArg _ (add_add _ _ _).symm).trans (g1 3 (by decide) (by decide)))
    rw [add_add, ← hf1] at a0 a1 a2 a3 a4 a5
    exact ⟨a0, a1, a2, a3, a4, a5, b0, b1, b2, b3⟩
  · exact (o1.mono fun x h => in_add (by decide) h).trans (o2.mono fun x h => in_add (by decide) h)
  · rw [← hf1]; rfl
  · rw [← hf1]; rfl
  · simp only [set_apply, if_true, Opd.val, Sh.val]
    exact add_sub_frame b (by decide)
  · simp only [set_apply, if_true, if_false, Opd.val, reduceCtorEq]
    exact add_sub_frame b (by decide)

/-- Lines 375-384. -/
def copy : List (Ins Label) :=
  [.ldm .r0 [.r1, .r2, .r3, .r4, .r5, .r7], .stm .r6 [.r1, .r2, .r3, .r4, .r5, .r7], .ldm .r0 [.r1, .r2, .r3, .r4, .r5, .r7],
   .stm .r6 [.r1, .r2, .r3, .r4, .r5, .r7], .sub true .r0 .r0 (.imm 48), .sub true .r6 .r6 (.imm 48), .ldrh .r1 .r0 (24*2),
   .strh .r1 .r6 (24*2)]

theorem runL_copy {q : BitVec 32} (hrd : ∀ a, In p 50 a → P.rd a = true) (hp4 : p.toNat % 4 = 0) (hwr : ∀ a, In q 50 a → P.wr a = true)
    (hq4 : q.toNat % 4 = 0) (hs : Sep p 50 q 50) (h0 : f .r0 = p) (h6 : f .r6 = q) :
    ∃ f' m', runL P adr copy f m = some (f', m') ∧ lanes m' q = lanes m p ∧ Only (In q 50) m m' ∧ f' .r0 = p ∧ f' .r6 = q ∧
      f' .sp = f .sp ∧ f' .r8 = f .r8 := by
  have z0 : ∀ x : BitVec 32, x + BitVec.ofNat 32 0 = x := fun x => BitVec.add_zero x
  generalize hX : runL P adr copy f m = X
  rw [copy, runL_ldm (a := p + BitVec.ofNat 32 0) (by rw [h0, z0]) (may_sub hrd (by decide)) (aligned4' hp4 _ (by decide) _),
    runL_stm (a := q + BitVec.ofNat 32 0) (by simp only [set_apply, loadRegs, reduceCtorEq, if_false, h6, z0])
      (may_sub hwr (by decide)) (aligned4' hq4 _ (by decide) _)] at hX
  generalize hf1 : set (loadRegs m (p + BitVec.ofNat 32 0) [.r1, .r2, .r3, .r4, .r5, .r7] f) .r0 _ = f1 at hX
  have o1 := only_storeRegs f1 [.r1, .r2, .r3, .r4, .r5, .r7] (q + BitVec.ofNat 32 0) m
  have g1 := get32_storeRegs f1 [.r1, .r2, .r3, .r4, .r5, .r7] (q + BitVec.ofNat 32 0) m
  generalize storeRegs f1 (q + BitVec.ofNat 32 0) [.r1, .r2, .r3, .r4, .r5, .r7] m = m1 at o1 g1 hX
  rw [runL_ldm (a := p + BitVec.ofNat 32 24) (by rw [← hf1]; simp only [set_apply, reduceCtorEq, if_false, if_true, List.length_cons,
      List.length_nil, add_add, Nat.reduceAdd, Nat.reduceMul]) (may_sub hrd (by decide)) (aligned4' hp4 _ (by decide) _),
    runL_stm (a := q + BitVec.ofNat 32 24) (by simp only [set_apply, loadRegs, reduceCtorEq, if_false, if_true, List.length_cons,
      List.length_nil, add_add, Nat.reduceAdd, Nat.reduceMul]) (may_sub hwr (by decide)) (aligned4' hq4 _ (by decide) _)] at hX
  generalize hf2 : set (loadRegs m1 (p + BitVec.ofNat 32 24) [.r1, .r2, .r3, .r4, .r5, .r7] _) .r0 _ = f2 at hX
  have o2 := only_storeRegs f2 [.r1, .r2, .r3, .r4, .r5, .r7] (q + BitVec.ofNat 32 24) m1
  have g2 := get32_storeRegs f2 [.r1, .r2, .r3, .r4, .r5, .r7] (q + BitVec.ofNat 32 24) m1
  generalize storeRegs f2 (q + BitVec.ofNat 32 24) [.r1, .r2, .r3, .r4, .r5, .r7] m1 = m2 at o2 g2 hX
  simp only [runL_sub] at hX
  rw [runL_ldrh (a := p + BitVec.ofNat 32 (24*2)) (by
      rw [← hf2]
      simp only [set_apply, reduceCtorEq, if_false, if_true, List.length_cons, List.length_nil, add_add, Nat.reduceAdd, Nat.reduceMul, Opd.val]
      rw [add_sub_frame p (by decide), z0]) (may_sub hrd (by decide)) (aligned2 (by omega) _ (by decide)),
    runL_strh (a := q + BitVec.ofNat 32 (24*2)) (by
      simp only [set_apply, reduceCtorEq, if_false, if_true, List.length_cons, List.length_nil, add_add, Nat.reduceAdd, Nat.reduceMul, Opd.val]
      rw [add_sub_frame q (by decide), z0]) (may_sub hwr (by decide)) (aligned2 (by omega) _ (by decide)), runL_nil] at hX
  subst hX
  have O1 : Only (In q 50) m m1 := o1.mono fun x h => in_add (by decide) h
  have O2 : Only (In q 50) m1 m2 := o2.mono fun x h => in_add (by decide) h
  have v24 : get16 m2 (p + BitVec.ofNat 32 48) = get16 m (p + BitVec.ofNat 32 48) :=
    get16_only (O1.trans O2) fun x hx h => hs x (in_add (by decide) hx) h
  refine ⟨_, _, rfl, ?_, ?_, ?_, ?_, ?_, ?_⟩
  · have o3 := fun v => only_put16 m2 (q + BitVec.ofNat 32 (24*2)) v
    refine lanes_ext ?_ ?_
    · intro k hk
      rw [get32_only (o3 _) (sep_offsets q (.inl (by omega)) (by omega) (by decide))]
      by_cases h1 : k < 6
      · rw [get32_only o2 (sep_offsets q (.inl (by omega)) (by omega) (by decide))]
        have := g1 k h1 (by decide)
        rw [add_add, Nat.zero_add] at this
        rw [this, ← hf1]
        have hk : k = 0 ∨ k = 1 ∨ k = 2 ∨ k = 3 ∨ k = 4 ∨ k = 5 := by omega
        rcases hk with rfl | rfl | rfl | rfl | rfl | rfl <;>
          simp only [loadRegs, add_four, add_add, Nat.reduceAdd, Nat.reduceMul, set_apply, reduceCtorEq, if_false, if_true, List.getElem_cons_zero,
            List.getElem_cons_succ]
      · have := g2 (k - 6) (show k - 6 < 6 by omega) (by decide)
        rw [add_add, show 24 + 4 * (k - 6) = 4 * k by omega] at this
        rw [this, ← hf2]
        have v : ∀ j, j + 4 ≤ 50 → get32 m1 (p + BitVec.ofNat 32 j) = get32 m (p + BitVec.ofNat 32 j) := fun j hj =>
          get32_only O1 fun x hx h => hs x (in_add hj hx) h
        have hk : k = 6 ∨ k = 7 ∨ k = 8 ∨ k = 9 ∨ k = 10 ∨ k = 11 := by omega
        rcases hk with rfl | rfl | rfl | rfl | rfl | rfl <;>
          simp only [loadRegs, add_four, add_add, Nat.reduceAdd, Nat.reduceMul, Nat.reduceSub, set_apply, reduceCtorEq, if_false, if_true,
            List.getElem_cons_zero, List.getElem_cons_succ, v, Nat.reduceLeDiff]
    · rw [get16_put16]
      simp only [set_apply, if_true]
      rw [BitVec.setWidth_setWidth_of_le _ (by decide), BitVec.setWidth_eq]
      exact v24
  · exact (O1.trans O2).trans ((only_put16 _ _ _).mono fun x h => in_add (by decide) h)
  · rw [← hf2]
    simp only [set_apply, reduceCtorEq, if_false, if_true, List.length_cons, List.length_nil, add_add, Nat.reduceAdd, Nat.reduceMul, Opd.val]
    rw [add_sub_frame p (by decide), z0]
  · simp only [set_apply, reduceCtorEq, if_false, if_true, List.length_cons, List.length_nil, add_add, Nat.reduceAdd, Nat.reduceMul, Opd.val]
    rw [add_sub_frame q (by decide), z0]
  · rw [← hf2, ← hf1]; rfl
  · rw [← hf2, ← hf1]; rfl

end


/-! ## The routines -/

section
variable {b p t : BitVec 32} {F : Reg → BitVec 32}

theorem sub_twice {n : Nat} (hn : n ≤ 20) : t + BitVec.ofNat 32 40 - BitVec.ofNat 32 n - BitVec.ofNat 32 n = t + BitVec.ofNat 32 (2 * (20 - n)) := by
  rw [add_sub_frame t (by omega), add_sub_frame t (by omega)]
  congr 2; omega

theorem parity31 : ∀ n ≤ 20, (BitVec.ofNat 32 n <<< 31 == 0) = decide (n % 2 = 0) := by
  have : ∀ n < 21, (BitVec.ofNat 32 n <<< 31 == 0) = decide (n % 2 = 0) := by decide
  exact fun n h => this n (by omega)

/-- From the loop to the return, `n` even. -/
theorem finish_even {m0 : BitVec 32 → Byte} (C : Ctx P b p t m0) (S : Saved b F m0) (hF : F .sp = b + BitVec.ofNat 32 100) {n : Nat} (h0 : 0 < n) (hn : n ≤ 20)
    (hev : n % 2 = 0) (I : Inv b p m0 f m) (h7 : f .r7 = t + BitVec.ofNat 32 (2 * (20 - n))) (z c : Bool) :
    ∃ f' m' z' c', Reaches P adr prog (.run codeLoop ⟨f, m, z, c⟩) (.ret (F .lr) ⟨f', m', z', c'⟩) ∧ Back F f' ∧
      Only (Wr b p) m0 m' ∧ lanes m' p = Keccak.p n (lanes m p) := by
  obtain ⟨f1, m1, z1, c1, r1, I1, h8, l1⟩ := even_step (adr := adr) C (by omega) I h7 z c
  obtain ⟨f2, m2, z2, c2, r2, I2, l2⟩ := loop (adr := adr) C ((n - 2) / 2) (20 - n + 1) (by omega) f1 m1 z1 c1 I1 h8
  obtain ⟨f3, z3, c3, r3, B⟩ := epilogue (adr := adr) C.rdB C.alB (S.only C.sepPB I2.only) hF I2.sp z2 c2
  refine ⟨f3, m2, z3, c3, (r1.trans r2).trans r3, B, I2.only, ?_⟩
  rw [l2, l1, Keccak.p]
  conv => rhs; rw [show Keccak.rounds (20 - n) n = Keccak.rounds (20 - n) (2 * ((n - 2) / 2) + 1 + 1) by congr 1; omega]
  rfl

/-- From the label `KeccakP400_Permute_RoundOdd` to the return, `n` odd. -/
theorem finish_odd {m0 : BitVec 32 → Byte} (C : Ctx P b p t m0) (S : Saved b F m0) (hF : F .sp = b + BitVec.ofNat 32 100) {n : Nat} (hn : n ≤ 20)
    (hod : n % 2 = 1) (I : Inv b p m0 f m) (h8 : f .r8 + BitVec.ofNat 32 2 = t + BitVec.ofNat 32 (2 * (20 - n))) (z c : Bool) :
    ∃ f' m' z' c', Reaches P adr prog (.run codeOdd ⟨f, m, z, c⟩) (.ret (F .lr) ⟨f', m', z', c'⟩) ∧ Back F f' ∧
      Only (Wr b p) m0 m' ∧ lanes m' p = Keccak.p n (lanes m (b + BitVec.ofNat 32 4)) := by
  obtain ⟨f2, m2, z2, c2, r2, I2, l2⟩ := loop (adr := adr) C (n / 2) (20 - n) (by omega) f m z c I h8
  obtain ⟨f3, z3, c3, r3, B⟩ := epilogue (adr := adr) C.rdB C.alB (S.only C.sepPB I2.only) hF I2.sp z2 c2
  refine ⟨f3, m2, z3, c3, r2.trans r3, B, I2.only, ?_⟩
  rw [l2, Keccak.p]
  congr 1; omega

/-- Lines 368-387, with the label of line 359 left out. -/
def rest : List (Item Label) :=
  [.ins (.adr .r7 .roundConstants), .ins (.sub true .r7 .r7 (.reg .r1)), .ins (.sub true .r7 .r7 (.reg .r1)),
   .ins (.lsl true .r1 .r1 31), .ins (.beq .permuteNroundsGoRoundLoop), .ins (.sub true .r7 .r7 (.imm 2)),
   .ins (.mov false .r8 (.reg .r7))] ++ copy.map .ins ++
  [.ins (.b .permuteRoundOdd), .lab .permuteNroundsGoRoundLoop, .ins (.b .permuteRoundLoop), .ins (.nop)] ++ permute20rounds

theorem target_nrounds : target prog .permuteNrounds = entry.map .ins ++ rest := by
  simp only [prog, staticInitialize, init, addByte, addBytes, overwriteBytes, overwriteWithZeroes, extractBytes, extractAndAddBytes,
    permuteNrounds, List.append_assoc, List.cons_append, List.nil_append, target, reduceCtorEq, if_false, if_true, rest, entry, copy, List.map]

theorem target_go : target prog .permuteNroundsGoRoundLoop = [.ins (.b .permuteRoundLoop), .ins (.nop)] ++ permute20rounds := by
  simp only [prog, staticInitialize, init, addByte, addBytes, overwriteBytes, overwriteWithZeroes, extractBytes, extractAndAddBytes,
    permuteNrounds, List.append_assoc, List.cons_append, List.nil_append, target, reduceCtorEq, if_false, if_true]

theorem target_20 : ∃ r, target prog .permute20rounds = entry.map .ins ++ (.ins (.adr .r7 .roundConstants20) :: .ins (.b .permuteRoundLoop) :: r) := by
  simp only [prog, staticInitialize, init, addByte, addBytes, overwriteBytes, overwriteWithZeroes, extractBytes, extractAndAddBytes,
    permuteNrounds, permute20rounds, List.append_assoc, List.cons_append, List.nil_append, target, reduceCtorEq, if_false, if_true, entry, List.map]
  exact ⟨_, rfl⟩

theorem ctx_of {M : Mach} (A : Areas P M p 100 t table) (hb : M.reg .sp = b + BitVec.ofNat 32 100) {m0 : BitVec 32 → Byte}
    (o : Only (In b 100) M.mem m0) : Ctx P b p t m0 := by
  have e : M.reg .sp - BitVec.ofNat 32 100 = b := by rw [hb]; exact BitVec.add_sub_cancel _ _
  obtain ⟨a1, a2, a3, a4, a5, a6, a7, a8, a9, a10, a11, a12⟩ := A
  rw [e] at a4 a5 a10 a12
  refine ⟨a1, a2, a3, a4, a5, ?_, a7, a8, ?_, a10, a11, a12⟩
  · rw [hb, BitVec.toNat_add, BitVec.toNat_ofNat] at a6; omega
  · intro i hi
    rw [get16_only o, a9 i hi]
    exact fun x h1 h2 => a12 x (in_add (by simp only [show table.length = 21 from rfl]; omega) h1) h2

/-- `KeccakP400_Permute_Nrounds` -/
theorem returns_permuteNrounds {M : Mach} {n : Nat} (h0 : 0 < n) (hn : n ≤ 20) (hp : M.reg .r0 = p) (h1 : M.reg .r1 = BitVec.ofNat 32 n)
    (ht : adr .roundConstants = t + BitVec.ofNat 32 40) (A : Areas P M p 100 t table) :
    ∃ M', Returns P adr prog .permuteNrounds M M' ∧ lanes M'.mem p = Keccak.p n (lanes M.mem p) ∧ Back M.reg M'.reg ∧
      Only (fun x => In p 50 x ∨ In (M.reg .sp - BitVec.ofNat 32 100) 100 x) M.mem M'.mem := by
  obtain ⟨b, hb⟩ : ∃ b, M.reg .sp = b + BitVec.ofNat 32 100 := ⟨M.reg .sp - BitVec.ofNat 32 100, (BitVec.sub_add_cancel _ _).symm⟩
  have eb : M.reg .sp - BitVec.ofNat 32 100 = b := by rw [hb]; exact BitVec.add_sub_cancel _ _
  obtain ⟨F, m, z, c⟩ := M
  simp only at hp h1 hb eb
  have C0 := ctx_of A hb (Only.refl _ _)
  obtain ⟨f1, m1, e1, S1, o1, g0, g1, g6, gs⟩ := runL_entry (adr := adr) (m := m) C0.wrB C0.alB hb
  have C1 := ctx_of A hb o1
  rw [hp] at g0
  rw [h1] at g1
  have lp : lanes m1 p = lanes m p := lanes_only o1 C0.sepPB
  obtain ⟨z1, c1, r1⟩ := reaches_block (prog := prog) e1 z c rest
  rw [← target_nrounds] at r1
  have e2 : runL P adr [.adr .r7 .roundConstants, .sub true .r7 .r7 (.reg .r1), .sub true .r7 .r7 (.reg .r1)] f1 m1 =
      some (set (set (set f1 .r7 (adr .roundConstants)) .r7 (adr .roundConstants - f1 .r1)) .r7 (adr .roundConstants - f1 .r1 - f1 .r1), m1) := rfl
  rw [g1, ht, sub_twice hn] at e2
  generalize hf2 : set (set (set f1 .r7 _) .r7 _) .r7 (t + BitVec.ofNat 32 (2 * (20 - n))) = f2 at e2
  obtain ⟨z2, c2, r2⟩ := reaches_block (prog := prog) e2 z1 c1
    ([.ins (.lsl true .r1 .r1 31), .ins (.beq .permuteNroundsGoRoundLoop), .ins (.sub true .r7 .r7 (.imm 2)),
   .ins (.mov false .r8 (.reg .r7))] ++ copy.map .ins ++
  [.ins (.b .permuteRoundOdd), .lab .permuteNroundsGoRoundLoop, .ins (.b .permuteRoundLoop), .ins (.nop)] ++ permute20rounds)
  have h21 : f2 .r1 = BitVec.ofNat 32 n := by rw [← hf2]; exact g1
  have r3 := Reaches.one (P := P) (adr := adr) (prog := prog) (a := .run ([.ins (.lsl true .r1 .r1 31), .ins (.beq .permuteNroundsGoRoundLoop), .ins (.sub true .r7 .r7 (.imm 2)),
   .ins (.mov false .r8 (.reg .r7))] ++ copy.map .ins ++
  [.ins (.b .permuteRoundOdd), .lab .permuteNroundsGoRoundLoop, .ins (.b .permuteRoundLoop), .ins (.nop)] ++ permute20rounds) ⟨f2, m1, z2, c2⟩)
    (b := .run ([.ins (.beq .permuteNroundsGoRoundLoop), .ins (.sub true .r7 .r7 (.imm 2)),
   .ins (.mov false .r8 (.reg .r7))] ++ copy.map .ins ++
  [.ins (.b .permuteRoundOdd), .lab .permuteNroundsGoRoundLoop, .ins (.b .permuteRoundLoop), .ins (.nop)] ++ permute20rounds)
    ⟨set f2 .r1 (f2 .r1 <<< 31), m1, f2 .r1 <<< 31 == 0, (f2 .r1).getLsbD 1⟩) rfl
  generalize hf3 : set f2 .r1 (f2 .r1 <<< 31) = f3 at r3
  rw [h21, parity31 n hn] at r3
  have h37 : f3 .r7 = t + BitVec.ofNat 32 (2 * (20 - n)) := by rw [← hf3, ← hf2]; rfl
  have h30 : f3 .r0 = p := by rw [← hf3, ← hf2]; exact g0
  have h36 : f3 .r6 = b + BitVec.ofNat 32 4 := by rw [← hf3, ← hf2]; exact g6
  have h3s : f3 .sp = b + BitVec.ofNat 32 4 := by rw [← hf3, ← hf2]; exact gs
  have fin : ∀ {f' m' z' c'}, Reaches P adr prog (.run (target prog .permuteNrounds) ⟨F, m, z, c⟩) (.ret (F .lr) ⟨f', m', z', c'⟩) →
      Back F f' → Only (Wr b p) m1 m' → lanes m' p = Keccak.p n (lanes m p) →
      ∃ M', Returns P adr prog .permuteNrounds ⟨F, m, z, c⟩ M' ∧ lanes M'.mem p = Keccak.p n (lanes m p) ∧ Back F M'.reg ∧
        Only (fun x => In p 50 x ∨ In (F .sp - BitVec.ofNat 32 100) 100 x) m M'.mem := by
    intro f' m' z' c' r B o l
    refine ⟨⟨f', m', z', c'⟩, r, l, B, ?_⟩
    rw [eb]
    refine (o1.mono fun x h => .inr h).trans (o.mono ?_)
    rintro x (h | h)
    · exact .inl h
    · exact .inr (in_mono (by decide) h)
  by_cases hev : n % 2 = 0
  · rw [decide_eq_true hev] at r3
    obtain ⟨f4, m4, z4, c4, r4, B, o4, l4⟩ := finish_even (adr := adr) C1 S1 hb h0 hn hev ⟨h30, h36, h3s, Only.refl _ m1⟩ h37 true ((BitVec.ofNat 32 n).getLsbD 1)
    refine fin (z' := z4) (c' := c4) (((r1.trans r2).trans r3).trans (.step (.step ?_))) B o4 (by rw [l4, lp])
    show Reaches P adr prog (step P adr prog (.run (target prog .permuteNroundsGoRoundLoop) _)) _
    rw [target_go]
    show Reaches P adr prog (.run (target prog .permuteRoundLoop) _) _
    rw [target_loop]
    exact r4
  · rw [decide_eq_false hev] at r3
    have e4 : runL P adr [.sub true .r7 .r7 (.imm 2), .mov false .r8 (.reg .r7)] f3 m1 =
      some (set (set f3 .r7 (f3 .r7 - BitVec.ofNat 32 2)) .r8 (f3 .r7 - BitVec.ofNat 32 2), m1) := rfl
    generalize hf4 : set (set f3 .r7 (f3 .r7 - BitVec.ofNat 32 2)) .r8 (f3 .r7 - BitVec.ofNat 32 2) = f4 at e4
    obtain ⟨f5, m5, e5, l5, o5, g50, g56, g5s, g58⟩ := runL_copy (adr := adr) (f := f4) (m := m1) C1.rdP C1.alP C1.writeQ.wr (add_four' C1.alB (by decide)) C1.sepPQ
      (by rw [← hf4]; exact h30) (by rw [← hf4]; exact h36)
    have h8 : f5 .r8 + BitVec.ofNat 32 2 = t + BitVec.ofNat 32 (2 * (20 - n)) := by
      rw [g58, ← hf4, h37]
      exact BitVec.sub_add_cancel _ _
    obtain ⟨z5, c5, r5⟩ := reaches_block (prog := prog) (runL_trans e4 e5) false ((BitVec.ofNat 32 n).getLsbD 1)
      ([.ins (.b .permuteRoundOdd), .lab .permuteNroundsGoRoundLoop, .ins (.b .permuteRoundLoop), .ins (.nop)] ++ permute20rounds)
    have o5' : Only (Wr b p) m1 m5 := o5.mono fun x h => .inr (in_add (by decide) h)
    obtain ⟨f6, m6, z6, c6, r6, B, o6, l6⟩ := finish_odd (adr := adr) C1 S1 hb hn (by omega)
      ⟨g50, g56, by rw [g5s, ← hf4]; exact h3s, o5'⟩ h8 z5 c5
    refine fin (((r1.trans r2).trans r3).trans (.step (.trans ?_ r6))) B o6 (by rw [l6, l5, lp])
    rw [← target_odd]
    exact r5.trans (.one rfl)

/-- `KeccakP400_Permute_20rounds` -/
theorem returns_permute20rounds {M : Mach} (hp : M.reg .r0 = p) (ht : adr .roundConstants20 = t) (A : Areas P M p 100 t table) :
    ∃ M', Returns P adr prog .permute20rounds M M' ∧ lanes M'.mem p = Keccak.p 20 (lanes M.mem p) ∧ Back M.reg M'.reg ∧
      Only (fun x => In p 50 x ∨ In (M.reg .sp - BitVec.ofNat 32 100) 100 x) M.mem M'.mem := by
  obtain ⟨b, hb⟩ : ∃ b, M.reg .sp = b + BitVec.ofNat 32 100 := ⟨M.reg .sp - BitVec.ofNat 32 100, (BitVec.sub_add_cancel _ _).symm⟩
  have eb : M.reg .sp - BitVec.ofNat 32 100 = b := by rw [hb]; exact BitVec.add_sub_cancel _ _
  obtain ⟨F, m, z, c⟩ := M
  simp only at hp hb eb
  have C0 := ctx_of A hb (Only.refl _ _)
  obtain ⟨f1, m1, e1, S1, o1, g0, g1, g6, gs⟩ := runL_entry (adr := adr) (m := m) C0.wrB C0.alB hb
  have C1 := ctx_of A hb o1
  rw [hp] at g0
  have lp : lanes m1 p = lanes m p := lanes_only o1 C0.sepPB
  obtain ⟨r, hr⟩ := target_20
  obtain ⟨z1, c1, r1⟩ := reaches_block (prog := prog) e1 z c (.ins (.adr .r7 .roundConstants20) :: .ins (.b .permuteRoundLoop) :: r)
  obtain ⟨f4, m4, z4, c4, r4, B, o4, l4⟩ := finish_even (adr := adr) (f := set f1 .r7 (adr .roundConstants20)) (n := 20) C1 S1 hb (by decide) (by decide) (by decide)
    ⟨g0, g6, gs, Only.refl _ m1⟩ (ht.trans (BitVec.add_zero _).symm) z1 c1
  rw [← hr] at r1
  refine ⟨⟨f4, m4, z4, c4⟩, r1.trans (.step (.step ?_)), by rw [← lp]; exact l4, B, ?_⟩
  · show Reaches P adr prog (.run (target prog .permuteRoundLoop) _) _
    rw [target_loop]
    exact r4
  · rw [eb]
    refine (o1.mono fun x h => .inr h).trans (o4.mono ?_)
    rintro x (h | h)
    · exact .inl h
    · exact .inr (in_mono (by decide) h)

end

end Model.KeccakAsm.V6
