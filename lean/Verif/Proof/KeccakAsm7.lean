import Verif.Proof.KeccakAsm7Round
/-!
# The permutation routines of `KeccakP-400-armv7m-le-gcc.s`
-/

set_option linter.unusedSimpArgs false

namespace Model.KeccakAsm.V7
open C.Thumb Spec Model.K128

variable {P : Plat} {adr : Label → BitVec 32} {f : Reg → BitVec 32} {m : BitVec 32 → Byte} {is : List (Ins Label)}

/-! ## The program -/

/-- Lines 426-450. -/
def codeDone : List (Item Label) :=
  [.ins (.add false .sp .sp (.imm (2*25 + 6))),
   .ins (.popPc [.r4, .r5, .r6, .r7, .r8, .r9, .r10, .r11, .r12]), .lab .roundConstants20, .lab .roundConstants]

/-- Lines 423-450. -/
def codeTail : List (Item Label) :=
  [.ins (.ldrh .r3 .r8 0), .ins (.cmp .r3 (.imm 0)), .ins (.bne .permuteRoundLoop)] ++ codeDone

/-- Lines 422-450. -/
def codeOdd : List (Item Label) := (keccakRound .r0 .sp).map .ins ++ codeTail

/-- Lines 420-450. -/
def codeLoop : List (Item Label) := (keccakRound .sp .r0).map .ins ++ (.lab .permuteRoundOdd :: codeOdd)

/-- Lines 412-418. -/
def setupEven : List (Ins Label) :=
  [.ldrh .r9 .r0 (20*2), .ldrh .r10 .r0 (21*2), .ldrh .r11 .r0 (22*2), .ldrh .lr .r0 (24*2), .ldrh .r12 .r0 (23*2), .mov false .r5 (.reg .lr)] ++
  (xor5 .r7 .r0 (4*2) (9*2) (14*2) (19*2) .lr ++ [])

/-- Lines 412-450. -/
def codeIntern : List (Item Label) := setupEven.map .ins ++ (.lab .permuteRoundLoop :: codeLoop)

/-- Lines 377-378 and 408-409. -/
def entry : List (Ins Label) :=
  [.push [.r4, .r5, .r6, .r7, .r8, .r9, .r10, .r11, .r12, .lr], .sub false .sp .sp (.imm (2*25 + 6))]

/-- Lines 383-387. -/
def copy : List (Ins Label) :=
  [.mov false .r1 (.reg .sp), .ldm .r0 [.r2, .r3, .r4, .r5, .r11, .r12], .stm .r1 [.r2, .r3, .r4, .r5, .r11, .r12],
   .ldm .r0 [.r2, .r3, .r4, .r5, .r11, .r12], .stm .r1 [.r2, .r3, .r4, .r5, .r11, .r12],
   .sub false .r0 .r0 (.imm (2*24)), .ldrh .lr .r0 (24*2), .strh .lr .sp (24*2)]

/-- Lines 388-396. -/
def setupOdd : List (Ins Label) :=
  [.uxth .r9 .r11, .uxth .r10 .r11 16, .uxth .r11 .r12, .lsr false .r12 .r12 16, .mov false .r5 (.reg .lr)] ++
  (xor5 .r7 .r0 (4*2) (9*2) (14*2) (19*2) .lr ++ [])

theorem target_loop : target prog .permuteRoundLoop = codeLoop := by
  simp only [prog, staticInitialize, init, addByte, addBytes, overwriteBytes, overwriteWithZeroes, extractBytes, extractAndAddBytes,
    permuteNrounds, permute20rounds, List.append_assoc, List.cons_append, List.nil_append, target, reduceCtorEq, if_false, if_true, target_map]
  rfl

theorem target_odd : target prog .permuteRoundOdd = codeOdd := by
  simp only [prog, staticInitialize, init, addByte, addBytes, overwriteBytes, overwriteWithZeroes, extractBytes, extractAndAddBytes,
    permuteNrounds, permute20rounds, List.append_assoc, List.cons_append, List.nil_append, target, reduceCtorEq, if_false, if_true, target_map]
  rfl

theorem target_intern : target prog .permuteIntern = codeIntern := by
  simp only [prog, staticInitialize, init, addByte, addBytes, overwriteBytes, overwriteWithZeroes, extractBytes, extractAndAddBytes,
    permuteNrounds, permute20rounds, List.append_assoc, List.cons_append, List.nil_append, target, reduceCtorEq, if_false, if_true, target_map]
  rfl

theorem target_20 : target prog .permute20rounds =
    entry.map .ins ++ (.ins (.adr .r8 .roundConstants20) :: .lab .permuteIntern :: codeIntern) := by
  simp only [prog, staticInitialize, init, addByte, addBytes, overwriteBytes, overwriteWithZeroes, extractBytes, extractAndAddBytes,
    permuteNrounds, permute20rounds, List.append_assoc, List.cons_append, List.nil_append, target, reduceCtorEq, if_false, if_true, target_map]
  rfl

/-- Lines 382-450. -/
def rest : List (Item Label) := (copy ++ setupOdd).map .ins ++ (.ins (.b .permuteRoundOdd) :: permute20rounds)

theorem target_nrounds : target prog .permuteNrounds =
    entry.map .ins ++ ([.ins (.adr .r8 .roundConstants), .ins (.sub false .r8 .r8 (.reg .r1 (.lsl 1))), .ins (.lsl true .r1 .r1 31),
      .ins (.beq .permuteIntern)] ++ rest) := by
  simp only [prog, staticInitialize, init, addByte, addBytes, overwriteBytes, overwriteWithZeroes, extractBytes, extractAndAddBytes,
    permuteNrounds, List.append_assoc, List.cons_append, List.nil_append, target, reduceCtorEq, if_false, if_true]
  rfl

/-! ## The loop -/

/-- The memory during the call: the state at `p`, the stack from `b` on, the table at `t`. -/
structure Ctx (P : Plat) (b p t : BitVec 32) (m0 : BitVec 32 → Byte) : Prop where
  rdP : ∀ a, In p 50 a → P.rd a = true
  wrP : ∀ a, In p 50 a → P.wr a = true
  alP : p.toNat % 4 = 0
  rdB : ∀ a, In b 96 a → P.rd a = true
  wrB : ∀ a, In b 96 a → P.wr a = true
  alB : b.toNat % 4 = 0
  rdT : ∀ a, In t 42 a → P.rd a = true
  alT : t.toNat % 2 = 0
  tab : ∀ i < 21, get16 m0 (t + BitVec.ofNat 32 (2 * i)) = table.getD i 0
  sepPB : Sep p 50 b 96
  sepTP : Sep t 42 p 50
  sepTB : Sep t 42 b 96
  un : P.strict = false

section
variable {b p t : BitVec 32} {m0 : BitVec 32 → Byte}

/-- What the rounds write. -/
def Wr (b p : BitVec 32) (x : BitVec 32) : Prop := In p 50 x ∨ In b 50 x

theorem Ctx.readP (C : Ctx P b p t m0) : CanRead P p := ⟨C.rdP, four_even C.alP, C.un⟩
theorem Ctx.writeP (C : Ctx P b p t m0) : CanWrite P p := ⟨C.wrP, four_even C.alP⟩
theorem Ctx.readQ (C : Ctx P b p t m0) : CanRead P b := ⟨fun a ha => C.rdB a (in_mono (by decide) ha), four_even C.alB, C.un⟩
theorem Ctx.writeQ (C : Ctx P b p t m0) : CanWrite P b := ⟨fun a ha => C.wrB a (in_mono (by decide) ha), four_even C.alB⟩
theorem Ctx.sepPQ (C : Ctx P b p t m0) : Sep p 50 b 50 := fun a h1 h2 => C.sepPB a h1 (in_mono (by decide) h2)

theorem Ctx.tabAt (C : Ctx P b p t m0) {m : BitVec 32 → Byte} (h : Only (Wr b p) m0 m) {i : Nat} (hi : i < 21) :
    get16 m (t + BitVec.ofNat 32 (2 * i)) = table.getD i 0 := by
  rw [get16_only h, C.tab i hi]
  rintro x hx (h1 | h1)
  · exact C.sepTP x (in_add (by omega) hx) h1
  · exact C.sepTB x (in_add (by omega) hx) (in_mono (by decide) h1)

theorem table_rc : ∀ i < 20, table.getD i 0 = Keccak.rc i := by decide

theorem round_spec {i : Nat} (hi : i < 20) {A : Lanes} {q : Arm.V7.Carry} (h : Arm.V7.CarryOK A q) :
    (Arm.V7.round (table.getD i 0) A q).1 = Keccak.round i A := by
  rw [Arm.V7.round_fst _ h, table_rc i hi, flat_eq]

/-- The machine in the loop. -/
structure Inv (b p : BitVec 32) (m0 : BitVec 32 → Byte) (f : Reg → BitVec 32) (m : BitVec 32 → Byte) : Prop where
  r0 : f .r0 = p
  sp : f .sp = b
  only : Only (Wr b p) m0 m

theorem even_step (C : Ctx P b p t m0) {i : Nat} (hi : i < 20) (h : Inv b p m0 f m) (h8 : f .r8 = t + BitVec.ofNat 32 (2 * i))
    (hq : Arm.V7.CarryOK (lanes m p) (carry f)) (z c : Bool) :
    ∃ f' m' z' c', Reaches P adr prog (.run codeLoop ⟨f, m, z, c⟩) (.run codeOdd ⟨f', m', z', c'⟩) ∧ Inv b p m0 f' m' ∧
      f' .r8 = t + BitVec.ofNat 32 (2 * (i + 1)) ∧ Arm.V7.CarryOK (lanes m' b) (carry f') ∧ lanes m' b = Keccak.round i (lanes m p) := by
  obtain ⟨f', m', e, l, q, o, g0, gs, g8⟩ := runL_keccakRound (adr := adr) (m := m) (sOut := .sp) (sIn := .r0) (f := f)
    C.readP C.writeQ h.r0 h.sp (.inl ⟨rfl, rfl⟩) C.sepPQ h8 (fun x hx => C.rdT x (in_add (by omega) hx)) (add_even C.alT (by omega))
    (fun x h1 h2 => C.sepTB x (in_add (by omega) h1) (in_mono (by decide) h2))
  obtain ⟨z', c', hr⟩ := reaches_block (prog := prog) e z c (.lab .permuteRoundOdd :: codeOdd)
  refine ⟨f', m', z', c', hr.trans (Reaches.one rfl), ⟨g0.trans h.r0, gs.trans h.sp, h.only.trans (o.mono fun x h => .inr h)⟩, ?_, ?_, ?_⟩
  · rw [g8, add_add]; rfl
  · rw [l, q]; exact Arm.V7.round_snd _ _ _
  · rw [l, C.tabAt h.only (by omega), round_spec hi hq]

theorem odd_step (C : Ctx P b p t m0) {i : Nat} (hi : i < 20) (h : Inv b p m0 f m) (h8 : f .r8 = t + BitVec.ofNat 32 (2 * i))
    (hq : Arm.V7.CarryOK (lanes m b) (carry f)) (z c : Bool) :
    ∃ f' m' z' c', Reaches P adr prog (.run codeOdd ⟨f, m, z, c⟩) (.run (if i = 19 then codeDone else codeLoop) ⟨f', m', z', c'⟩) ∧
      Inv b p m0 f' m' ∧ f' .r8 = t + BitVec.ofNat 32 (2 * (i + 1)) ∧ Arm.V7.CarryOK (lanes m' p) (carry f') ∧
      lanes m' p = Keccak.round i (lanes m b) := by
  obtain ⟨f1, m1, e, l, q, o, g0, gs, g8⟩ := runL_keccakRound (adr := adr) (m := m) (sOut := .r0) (sIn := .sp) (f := f)
    C.readQ C.writeP h.sp h.r0 (.inr ⟨rfl, rfl⟩) C.sepPQ.symm h8 (fun x hx => C.rdT x (in_add (by omega) hx)) (add_even C.alT (by omega))
    (fun x h1 h2 => C.sepTP x (in_add (by omega) h1) h2)
  have o1 : Only (Wr b p) m0 m1 := h.only.trans (o.mono fun x h => .inl h)
  have g8' : f1 .r8 = t + BitVec.ofNat 32 (2 * (i + 1)) := by rw [g8, add_add]; rfl
  have hc : get16 m1 (t + BitVec.ofNat 32 (2 * (i + 1))) = table.getD (i + 1) 0 := C.tabAt o1 (by omega)
  have e2 : runL P adr [.ldrh .r3 .r8 0] f1 m1 = some (set f1 .r3 ((table.getD (i + 1) 0).setWidth 32), m1) := by
    rw [runL_ldrh (a := t + BitVec.ofNat 32 (2 * (i + 1))) (by rw [g8']; exact BitVec.add_zero _) (may_sub C.rdT (by omega))
      (aligned2 C.alT _ (by omega)), runL_nil, hc]
  obtain ⟨z1, c1, r1⟩ := reaches_block (prog := prog) e z c codeTail
  obtain ⟨z2, c2, r2⟩ := reaches_block (prog := prog) e2 z1 c1
    ([.ins (.cmp .r3 (.imm 0)), .ins (.bne .permuteRoundLoop)] ++ codeDone)
  generalize hf2 : set f1 .r3 ((table.getD (i + 1) 0).setWidth 32) = f2 at r2
  have hz : (f2 .r3 - (Opd.imm 0).val f2 == 0) = decide (i = 19) := by
    have : ∀ i < 20, ((table.getD (i + 1) 0).setWidth 32 - BitVec.ofNat 32 0 == 0) = decide (i = 19) := by decide
    rw [← this i hi, ← hf2]; rfl
  have r3 : Reaches P adr prog (.run ([.ins (.cmp .r3 (.imm 0)), .ins (.bne .permuteRoundLoop)] ++ codeDone) ⟨f2, m1, z2, c2⟩)
      (.run (if i = 19 then codeDone else codeLoop)
      ⟨f2, m1, decide (i = 19), decide (((Opd.imm 0).val f2).toNat ≤ (f2 .r3).toNat)⟩) := by
    refine .step (.step ?_)
    show Reaches P adr prog (.run (if (f2 .r3 - (Opd.imm 0).val f2 == 0) then codeDone else target prog .permuteRoundLoop)
      ⟨f2, m1, (f2 .r3 - (Opd.imm 0).val f2 == 0), _⟩) _
    rw [hz, target_loop]
    by_cases h19 : i = 19
    · simp only [h19, decide_true, if_true]
      exact .refl _
    · simp only [h19, decide_false, if_false, Bool.false_eq_true]
      exact .refl _
  refine ⟨f2, m1, _, _, (r1.trans r2).trans r3, ⟨?_, ?_, o1⟩, ?_, ?_, ?_⟩
  · rw [← hf2]; exact g0.trans h.r0
  · rw [← hf2]; exact gs.trans h.sp
  · rw [← hf2]; exact g8'
  · have : carry f2 = carry f1 := by rw [← hf2]; rfl
    rw [this, l, q]; exact Arm.V7.round_snd _ _ _
  · rw [l, C.tabAt h.only (by omega), round_spec hi hq]

/-- From the label `KeccakP400_Permute_RoundOdd` to the end of the loop. -/
theorem loop (C : Ctx P b p t m0) : ∀ (k i : Nat), i + (2 * k + 1) = 20 → ∀ f m z c, Inv b p m0 f m →
    f .r8 = t + BitVec.ofNat 32 (2 * i) → Arm.V7.CarryOK (lanes m b) (carry f) →
    ∃ f' m' z' c', Reaches P adr prog (.run codeOdd ⟨f, m, z, c⟩) (.run codeDone ⟨f', m', z', c'⟩) ∧ Inv b p m0 f' m' ∧
      lanes m' p = Keccak.rounds i (2 * k + 1) (lanes m b) := by
  intro k
  induction k with
  | zero =>
    intro i hk f m z c h h8 hq
    obtain ⟨f1, m1, z1, c1, r1, I1, -, -, l1⟩ := odd_step (adr := adr) C (by omega) h h8 hq z c
    rw [if_pos (by omega)] at r1
    exact ⟨f1, m1, z1, c1, r1, I1, l1⟩
  | succ k ih =>
    intro i hk f m z c h h8 hq
    obtain ⟨f1, m1, z1, c1, r1, I1, h7, q1, l1⟩ := odd_step (adr := adr) C (by omega) h h8 hq z c
    rw [if_neg (by omega)] at r1
    obtain ⟨f2, m2, z2, c2, r2, I2, h8', q2, l2⟩ := even_step (adr := adr) C (by omega) I1 h7 q1 z1 c1
    obtain ⟨f3, m3, z3, c3, r3, I3, l3⟩ := ih (i + 1 + 1) (by omega) f2 m2 z2 c2 I2 h8' q2
    refine ⟨f3, m3, z3, c3, (r1.trans r2).trans r3, I3, ?_⟩
    rw [l3, l2, l1]
    rfl

end

/-! ## Entry and exit -/

section
variable {b p t : BitVec 32} {m0 : BitVec 32 → Byte} {F : Reg → BitVec 32}

/-- The registers saved on the stack. -/
structure Saved (b : BitVec 32) (F : Reg → BitVec 32) (m : BitVec 32 → Byte) : Prop where
  r4 : get32 m (b + BitVec.ofNat 32 56) = F .r4
  r5 : get32 m (b + BitVec.ofNat 32 60) = F .r5
  r6 : get32 m (b + BitVec.ofNat 32 64) = F .r6
  r7 : get32 m (b + BitVec.ofNat 32 68) = F .r7
  r8 : get32 m (b + BitVec.ofNat 32 72) = F .r8
  r9 : get32 m (b + BitVec.ofNat 32 76) = F .r9
  r10 : get32 m (b + BitVec.ofNat 32 80) = F .r10
  r11 : get32 m (b + BitVec.ofNat 32 84) = F .r11
  r12 : get32 m (b + BitVec.ofNat 32 88) = F .r12
  lr : get32 m (b + BitVec.ofNat 32 92) = F .lr

theorem Saved.only {m m' : BitVec 32 → Byte} (S : Saved b F m) (hs : Sep p 50 b 96) (h : Only (Wr b p) m m') : Saved b F m' := by
  have key : ∀ k, 56 ≤ k → k + 4 ≤ 96 → get32 m' (b + BitVec.ofNat 32 k) = get32 m (b + BitVec.ofNat 32 k) := by
    intro k h1 h2
    refine get32_only h ?_
    rintro x hx (h3 | h3)
    · exact hs x h3 (in_add h2 hx)
    · have := sep_offsets b (i := 0) (n := 50) (j := k) (k := 4) (.inl (by omega)) (by decide) (by omega)
      rw [show b + BitVec.ofNat 32 0 = b from BitVec.add_zero b] at this
      exact this x h3 hx
  have k' : ∀ k, 56 ≤ k → k + 4 ≤ 96 → ∀ v, get32 m (b + BitVec.ofNat 32 k) = v → get32 m' (b + BitVec.ofNat 32 k) = v :=
    fun k h1 h2 v h => (key k h1 h2).trans h
  exact ⟨k' _ (by decide) (by decide) _ S.r4, k' _ (by decide) (by decide) _ S.r5, k' _ (by decide) (by decide) _ S.r6,
    k' _ (by decide) (by decide) _ S.r7, k' _ (by decide) (by decide) _ S.r8, k' _ (by decide) (by decide) _ S.r9,
    k' _ (by decide) (by decide) _ S.r10, k' _ (by decide) (by decide) _ S.r11, k' _ (by decide) (by decide) _ S.r12,
    k' _ (by decide) (by decide) _ S.lr⟩

theorem epilogue (hrd : ∀ a, In b 96 a → P.rd a = true) (hal : b.toNat % 4 = 0) (S : Saved b F m) (hF : F .sp = b + BitVec.ofNat 32 96)
    (hsp : f .sp = b) (z c : Bool) :
    ∃ f' z' c', Reaches P adr prog (.run codeDone ⟨f, m, z, c⟩) (.ret (F .lr) ⟨f', m, z', c'⟩) ∧ Back F f' := by
  have e : runL P adr [.add false .sp .sp (.imm (2*25 + 6))] f m = some (set f .sp (b + BitVec.ofNat 32 56), m) := by
    rw [runL_add, runL_nil]; simp only [Opd.val, hsp]
  generalize hf1 : set f .sp (b + BitVec.ofNat 32 56) = f1 at e
  have hs1 : f1 .sp = b + BitVec.ofNat 32 56 := by rw [← hf1]; rfl
  obtain ⟨z', c', r⟩ := reaches_block (prog := prog) e z c
    [.ins (.popPc [.r4, .r5, .r6, .r7, .r8, .r9, .r10, .r11, .r12]), .lab .roundConstants20, .lab .roundConstants]
  refine ⟨set (loadRegs m (f1 .sp) [.r4, .r5, .r6, .r7, .r8, .r9, .r10, .r11, .r12] f1) .sp (f1 .sp + BitVec.ofNat 32 40), z', c', r.trans (.one ?_), ?_⟩
  · rw [step]
    have h1 : may P.rd (f1 .sp) (4 * [Reg.r4, .r5, .r6, .r7, .r8, .r9, .r10, .r11, .r12].length + 4) = true := by
      rw [hs1]; exact may_sub hrd (by decide)
    have h2 : aligned true (f1 .sp) 4 = true := by rw [hs1]; exact aligned4' hal _ (by decide) _
    simp only [h1, h2, Bool.and_true, if_true]
    have h3 : get32 m (f1 .sp + BitVec.ofNat 32 (4 * [Reg.r4, .r5, .r6, .r7, .r8, .r9, .r10, .r11, .r12].length)) = F .lr := by
      rw [hs1, add_add]; exact S.lr
    rw [h3]
    rfl
  · constructor <;> simp only [hs1, loadRegs, add_four, add_add, Nat.reduceAdd, set_apply, reduceCtorEq, if_false, if_true,
      hF, S.r4, S.r5, S.r6, S.r7, S.r8, S.r9, S.r10, S.r11, S.r12]

theorem runL_entry (hwr : ∀ a, In b 96 a → P.wr a = true) (hal : b.toNat % 4 = 0) (hF : F .sp = b + BitVec.ofNat 32 96) :
    ∃ f' m', runL P adr entry F m = some (f', m') ∧ Saved b F m' ∧ Only (In b 96) m m' ∧ f' .r0 = F .r0 ∧ f' .r1 = F .r1 ∧ f' .sp = b := by
  generalize hX : runL P adr entry F m = X
  rw [entry, runL_push (a := b + BitVec.ofNat 32 56) (by rw [hF]; exact add_sub_frame b (by decide)) (may_sub hwr (by decide))
    (aligned4' hal _ (by decide) _)] at hX
  have o1 := only_storeRegs F [.r4, .r5, .r6, .r7, .r8, .r9, .r10, .r11, .r12, .lr] (b + BitVec.ofNat 32 56) m
  have g1 := get32_storeRegs F [.r4, .r5, .r6, .r7, .r8, .r9, .r10, .r11, .r12, .lr] (b + BitVec.ofNat 32 56) m
  generalize storeRegs F (b + BitVec.ofNat 32 56) [.r4, .r5, .r6, .r7, .r8, .r9, .r10, .r11, .r12, .lr] m = m1 at o1 g1 hX
  simp only [runL_sub, runL_nil] at hX
  subst hX
  refine ⟨_, _, rfl, ?_, ?_, ?_, ?_, ?_⟩
  · have a0 := g1 0 (by decide) (by decide)
    have a1 := g1 1 (by decide) (by decide)
    have a2 := g1 2 (by decide) (by decide)
    have a3 := g1 3 (by decide) (by decide)
    have a4 := g1 4 (by decide) (by decide)
    have a5 := g1 5 (by decide) (by decide)
    have a6 := g1 6 (by decide) (by decide)
    have a7 := g1 7 (by decide) (by decide)
    have a8 := g1 8 (by decide) (by decide)
    have a9 := g1 9 (by decide) (by decide)
    rw [add_add] at a0 a1 a2 a3 a4 a5 a6 a7 a8 a9
    exact ⟨a0, a1, a2, a3, a4, a5, a6, a7, a8, a9⟩
  · exact o1.mono fun x h => in_add (by decide) h
  · rfl
  · rfl
  · simp only [set_apply, if_true, Opd.val]
    rw [add_sub_frame b (by decide)]
    exact BitVec.add_zero b

theorem runL_setupEven (hp : CanRead P p) (h0 : f .r0 = p) :
    ∃ f', runL P adr setupEven f m = some (f', m) ∧ carry f' = Arm.V7.carryEven (lanes m p) ∧ f' .r0 = f .r0 ∧ f' .sp = f .sp ∧ f' .r8 = f .r8 := by
  generalize hX : runL P adr setupEven f m = X
  simp only [setupEven, List.cons_append, List.nil_append] at hX
  simp only [runL_nil, runL_ldrhLane hp, runL_mov, runL_xor5 hp, set_apply, reduceCtorEq, if_false, if_true, h0, ne_eq, not_false_eq_true,
    Nat.reduceLT, Opd.val, Sh.val] at hX
  subst hX
  refine ⟨_, rfl, ?_, ?_, ?_, ?_⟩
  · simp only [carry, set_apply, reduceCtorEq, if_false, if_true]; rfl
  all_goals simp only [set_apply, reduceCtorEq, if_false, h0]

theorem runL_copy {q : BitVec 32} (hrd : ∀ a, In p 50 a → P.rd a = true) (hp4 : p.toNat % 4 = 0) (hwr : ∀ a, In q 50 a → P.wr a = true)
    (hq4 : q.toNat % 4 = 0) (hs : Sep p 50 q 50) (h0 : f .r0 = p) (hsp : f .sp = q) :
    ∃ f' m', runL P adr copy f m = some (f', m') ∧ lanes m' q = lanes m p ∧ Only (In q 50) m m' ∧ f' .r0 = p ∧
      f' .sp = f .sp ∧ f' .r8 = f .r8 ∧ f' .r11 = get32 m (p + BitVec.ofNat 32 40) ∧ f' .r12 = get32 m (p + BitVec.ofNat 32 44) ∧
      f' .lr = (get16 m (p + BitVec.ofNat 32 48)).setWidth 32 := by
  have z0 : ∀ x : BitVec 32, x + BitVec.ofNat 32 0 = x := fun x => BitVec.add_zero x
  generalize hX : runL P adr copy f m = X
  rw [copy, runL_mov] at hX
  generalize hfa : set f .r1 ((Opd.reg Reg.sp).val f) = fa at hX
  have ha0 : fa .r0 = p := by rw [← hfa]; exact h0
  have ha1 : fa .r1 = q := by rw [← hfa]; exact hsp
  rw [runL_ldm (a := p + BitVec.ofNat 32 0) (by rw [ha0, z0]) (may_sub hrd (by decide)) (aligned4' hp4 _ (by decide) _),
    runL_stm (a := q + BitVec.ofNat 32 0) (by simp only [set_apply, loadRegs, reduceCtorEq, if_false, ha1, z0])
      (may_sub hwr (by decide)) (aligned4' hq4 _ (by decide) _)] at hX
  generalize hf1 : set (loadRegs m (p + BitVec.ofNat 32 0) [.r2, .r3, .r4, .r5, .r11, .r12] fa) .r0 _ = f1 at hX
  have o1 := only_storeRegs f1 [.r2, .r3, .r4, .r5, .r11, .r12] (q + BitVec.ofNat 32 0) m
  have g1 := get32_storeRegs f1 [.r2, .r3, .r4, .r5, .r11, .r12] (q + BitVec.ofNat 32 0) m
  generalize storeRegs f1 (q + BitVec.ofNat 32 0) [.r2, .r3, .r4, .r5, .r11, .r12] m = m1 at o1 g1 hX
  rw [runL_ldm (a := p + BitVec.ofNat 32 24) (by rw [← hf1]; simp only [set_apply, reduceCtorEq, if_false, if_true, List.length_cons,
      List.length_nil, add_add, Nat.reduceAdd, Nat.reduceMul]) (may_sub hrd (by decide)) (aligned4' hp4 _ (by decide) _),
    runL_stm (a := q + BitVec.ofNat 32 24) (by simp only [set_apply, loadRegs, reduceCtorEq, if_false, if_true, List.length_cons,
      List.length_nil, add_add, Nat.reduceAdd, Nat.reduceMul]) (may_sub hwr (by decide)) (aligned4' hq4 _ (by decide) _)] at hX
  generalize hf2 : set (loadRegs m1 (p + BitVec.ofNat 32 24) [.r2, .r3, .r4, .r5, .r11, .r12] _) .r0 _ = f2 at hX
  have o2 := only_storeRegs f2 [.r2, .r3, .r4, .r5, .r11, .r12] (q + BitVec.ofNat 32 24) m1
  have g2 := get32_storeRegs f2 [.r2, .r3, .r4, .r5, .r11, .r12] (q + BitVec.ofNat 32 24) m1
  generalize storeRegs f2 (q + BitVec.ofNat 32 24) [.r2, .r3, .r4, .r5, .r11, .r12] m1 = m2 at o2 g2 hX
  simp only [runL_sub] at hX
  have s2 : f2 .sp = q := by rw [← hf2, ← hf1, ← hfa]; exact hsp
  rw [runL_ldrh (a := p + BitVec.ofNat 32 (24*2)) (by
      rw [← hf2]
      simp only [set_apply, reduceCtorEq, if_false, if_true, List.length_cons, List.length_nil, add_add, Nat.reduceAdd, Nat.reduceMul, Opd.val]
      rw [add_sub_frame p (by decide), z0]) (may_sub hrd (by decide)) (aligned2 (by omega) _ (by decide)),
    runL_strh (a := q + BitVec.ofNat 32 (24*2)) (by
      simp only [set_apply, reduceCtorEq, if_false, s2]) (may_sub hwr (by decide)) (aligned2 (by omega) _ (by decide)), runL_nil] at hX
  subst hX
  have O1 : Only (In q 50) m m1 := o1.mono fun x h => in_add (by decide) h
  have O2 : Only (In q 50) m1 m2 := o2.mono fun x h => in_add (by decide) h
  have v24 : get16 m2 (p + BitVec.ofNat 32 48) = get16 m (p + BitVec.ofNat 32 48) :=
    get16_only (O1.trans O2) fun x hx h => hs x (in_add (by decide) hx) h
  have v : ∀ j, j + 4 ≤ 50 → get32 m1 (p + BitVec.ofNat 32 j) = get32 m (p + BitVec.ofNat 32 j) := fun j hj =>
    get32_only O1 fun x hx h => hs x (in_add hj hx) h
  refine ⟨_, _, rfl, ?_, ?_, ?_, ?_, ?_, ?_, ?_, ?_⟩
  · have o3 := fun v => only_put16 m2 (q + BitVec.ofNat 32 (24*2)) v
    refine lanes_ext ?_ ?_
    · intro k hk
      rw [get32_only (o3 _) (sep_offsets q (.inl (by omega)) (by omega) (by decide))]
      by_cases h1 : k < 6
      · rw [get32_only o2 (sep_offsets q (.inl (by omega)) (by omega) (by decide))]
        have := g1 k h1 (by decide)
        rw [add_add, Nat.zero_add] at this
        rw [this, ← hf1]
        have hk : k = 0 ∨ k = 1 ∨ k = 2 ∨ k = 3 ∨ k = 4 ∨ k = 5 := by omega
        rcases hk with rfl | rfl | rfl | rfl | rfl | rfl <;>
          simp only [loadRegs, add_four, add_add, Nat.reduceAdd, Nat.reduceMul, set_apply, reduceCtorEq, if_false, if_true, List.getElem_cons_zero,
            List.getElem_cons_succ]
      · have := g2 (k - 6) (show k - 6 < 6 by omega) (by decide)
        rw [add_add, show 24 + 4 * (k - 6) = 4 * k by omega] at this
        rw [this, ← hf2]
        have hk : k = 6 ∨ k = 7 ∨ k = 8 ∨ k = 9 ∨ k = 10 ∨ k = 11 := by omega
        rcases hk with rfl | rfl | rfl | rfl | rfl | rfl <;>
          simp only [loadRegs, add_four, add_add, Nat.reduceAdd, Nat.reduceMul, Nat.reduceSub, set_apply, reduceCtorEq, if_false, if_true,
            List.getElem_cons_zero, List.getElem_cons_succ, v, Nat.reduceLeDiff]
    · rw [get16_put16]
      simp only [set_apply, if_true]
      rw [BitVec.setWidth_setWidth_of_le _ (by decide), BitVec.setWidth_eq]
      exact v24
  · exact (O1.trans O2).trans ((only_put16 _ _ _).mono fun x h => in_add (by decide) h)
  · rw [← hf2]
    simp only [set_apply, reduceCtorEq, if_false, if_true, List.length_cons, List.length_nil, add_add, Nat.reduceAdd, Nat.reduceMul, Opd.val]
    rw [add_sub_frame p (by decide), z0]
  · rw [← hf2, ← hf1, ← hfa]; rfl
  · rw [← hf2, ← hf1, ← hfa]; rfl
  · rw [← hf2]
    simp only [loadRegs, add_four, add_add, Nat.reduceAdd, set_apply, reduceCtorEq, if_false, if_true, v, Nat.reduceLeDiff]
  · rw [← hf2]
    simp only [loadRegs, add_four, add_add, Nat.reduceAdd, set_apply, reduceCtorEq, if_false, if_true, v, Nat.reduceLeDiff]
  · simp only [set_apply, if_true]
    rw [← v24]

theorem runL_setupOdd (hp : CanRead P p) (h0 : f .r0 = p) (h11 : f .r11 = get32 m (p + BitVec.ofNat 32 40))
    (h12 : f .r12 = get32 m (p + BitVec.ofNat 32 44)) (hl : f .lr = (get16 m (p + BitVec.ofNat 32 48)).setWidth 32) :
    ∃ f', runL P adr setupOdd f m = some (f', m) ∧ carry f' = Arm.V7.carryOdd (lanes m p) ∧ f' .r0 = f .r0 ∧ f' .sp = f .sp ∧ f' .r8 = f .r8 := by
  have l11 : f .r11 = Arm.ldr (lanes m p) 20 := by
    rw [h11, Arm.ldr, lanes_get _ _ (by decide), lanes_get _ _ (by decide), get32, ← add_add p 40 2]; rfl
  have l12 : f .r12 = Arm.ldr (lanes m p) 22 := by
    rw [h12, Arm.ldr, lanes_get _ _ (by decide), lanes_get _ _ (by decide), get32, ← add_add p 44 2]; rfl
  have ll : f .lr = Arm.ldrh (lanes m p) 24 := by rw [hl, Arm.ldrh, lanes_get _ _ (by decide)]
  generalize hX : runL P adr setupOdd f m = X
  simp only [setupOdd, List.cons_append, List.nil_append] at hX
  simp only [runL_nil, runL_uxth0, runL_uxth, runL_lsr, runL_mov, runL_xor5 hp, set_apply, reduceCtorEq, if_false, if_true, h0, ne_eq,
    not_false_eq_true, Nat.reduceLT, Opd.val, Sh.val, l11, l12, ll] at hX
  subst hX
  refine ⟨_, rfl, ?_, ?_, ?_, ?_⟩
  · simp only [carry, set_apply, reduceCtorEq, if_false, if_true, Arm.V7.carryOdd, Arm.uxth, rotateRight_zero]
  all_goals simp only [set_apply, reduceCtorEq, if_false, h0]

end

/-! ## The routines -/

section
variable {b p t : BitVec 32} {F : Reg → BitVec 32}

theorem parity31 : ∀ n ≤ 20, (BitVec.ofNat 32 n <<< 31 == 0) = decide (n % 2 = 0) := by
  have : ∀ n < 21, (BitVec.ofNat 32 n <<< 31 == 0) = decide (n % 2 = 0) := by decide
  exact fun n h => this n (by omega)

theorem shl1 : ∀ n ≤ 20, BitVec.ofNat 32 n <<< 1 = BitVec.ofNat 32 (2 * n) := by
  have : ∀ n < 21, BitVec.ofNat 32 n <<< 1 = BitVec.ofNat 32 (2 * n) := by decide
  exact fun n h => this n (by omega)

/-- From `KeccakP400_Permute_Intern` to the return, `n` even. -/
theorem finish_even {m0 : BitVec 32 → Byte} (C : Ctx P b p t m0) (S : Saved b F m0) (hF : F .sp = b + BitVec.ofNat 32 96) {n : Nat} (h0 : 0 < n) (hn : n ≤ 20)
    (hev : n % 2 = 0) (I : Inv b p m0 f m) (h8 : f .r8 = t + BitVec.ofNat 32 (2 * (20 - n))) (z c : Bool) :
    ∃ f' m' z' c', Reaches P adr prog (.run codeIntern ⟨f, m, z, c⟩) (.ret (F .lr) ⟨f', m', z', c'⟩) ∧ Back F f' ∧
      Only (Wr b p) m0 m' ∧ lanes m' p = Keccak.p n (lanes m p) := by
  obtain ⟨f0, e0, q0, g0, gs, g8⟩ := runL_setupEven (adr := adr) (m := m) C.readP I.r0
  obtain ⟨z0, c0, r0⟩ := reaches_block (prog := prog) e0 z c (.lab .permuteRoundLoop :: codeLoop)
  obtain ⟨f1, m1, z1, c1, r1, I1, h8, q1, l1⟩ := even_step (adr := adr) C (by omega) (f := f0) ⟨g0.trans I.r0, gs.trans I.sp, I.only⟩ (g8.trans h8)
    (by rw [q0]; exact Arm.V7.carryEven_ok _) z0 c0
  obtain ⟨f2, m2, z2, c2, r2, I2, l2⟩ := loop (adr := adr) C ((n - 2) / 2) (20 - n + 1) (by omega) f1 m1 z1 c1 I1 h8 q1
  obtain ⟨f3, z3, c3, r3, B⟩ := epilogue (adr := adr) C.rdB C.alB (S.only C.sepPB I2.only) hF I2.sp z2 c2
  refine ⟨f3, m2, z3, c3, (((r0.trans (.one rfl)).trans r1).trans r2).trans r3, B, I2.only, ?_⟩
  rw [l2, l1, Keccak.p]
  conv => rhs; rw [show Keccak.rounds (20 - n) n = Keccak.rounds (20 - n) (2 * ((n - 2) / 2) + 1 + 1) by congr 1; omega]
  rfl

/-- From the label `KeccakP400_Permute_RoundOdd` to the return, `n` odd. -/
theorem finish_odd {m0 : BitVec 32 → Byte} (C : Ctx P b p t m0) (S : Saved b F m0) (hF : F .sp = b + BitVec.ofNat 32 96) {n : Nat} (hn : n ≤ 20)
    (hod : n % 2 = 1) (I : Inv b p m0 f m) (h8 : f .r8 = t + BitVec.ofNat 32 (2 * (20 - n))) (hq : Arm.V7.CarryOK (lanes m b) (carry f)) (z c : Bool) :
    ∃ f' m' z' c', Reaches P adr prog (.run codeOdd ⟨f, m, z, c⟩) (.ret (F .lr) ⟨f', m', z', c'⟩) ∧ Back F f' ∧
      Only (Wr b p) m0 m' ∧ lanes m' p = Keccak.p n (lanes m b) := by
  obtain ⟨f2, m2, z2, c2, r2, I2, l2⟩ := loop (adr := adr) C (n / 2) (20 - n) (by omega) f m z c I h8 hq
  obtain ⟨f3, z3, c3, r3, B⟩ := epilogue (adr := adr) C.rdB C.alB (S.only C.sepPB I2.only) hF I2.sp z2 c2
  refine ⟨f3, m2, z3, c3, r2.trans r3, B, I2.only, ?_⟩
  rw [l2, Keccak.p]
  congr 1; omega

theorem ctx_of {M : Mach} (A : Areas P M p 96 t table) (hu : P.strict = false) (hb : M.reg .sp = b + BitVec.ofNat 32 96) {m0 : BitVec 32 → Byte}
    (o : Only (In b 96) M.mem m0) : Ctx P b p t m0 := by
  have e : M.reg .sp - BitVec.ofNat 32 96 = b := by rw [hb]; exact BitVec.add_sub_cancel _ _
  obtain ⟨a1, a2, a3, a4, a5, a6, a7, a8, a9, a10, a11, a12⟩ := A
  rw [e] at a4 a5 a10 a12
  refine ⟨a1, a2, a3, a4, a5, ?_, a7, a8, ?_, a10, a11, a12, hu⟩
  · rw [hb, BitVec.toNat_add, BitVec.toNat_ofNat] at a6; omega
  · intro i hi
    rw [get16_only o, a9 i hi]
    exact fun x h1 h2 => a12 x (in_add (by simp only [show table.length = 21 from rfl]; omega) h1) h2

/-- `KeccakP400_Permute_Nrounds` -/
theorem returns_permuteNrounds {M : Mach} {n : Nat} (h0 : 0 < n) (hn : n ≤ 20) (hp : M.reg .r0 = p) (h1 : M.reg .r1 = BitVec.ofNat 32 n)
    (ht : adr .roundConstants = t + BitVec.ofNat 32 40) (hu : P.strict = false) (A : Areas P M p 96 t table) :
    ∃ M', Returns P adr prog .permuteNrounds M M' ∧ lanes M'.mem p = Keccak.p n (lanes M.mem p) ∧ Back M.reg M'.reg ∧
      Only (fun x => In p 50 x ∨ In (M.reg .sp - BitVec.ofNat 32 96) 96 x) M.mem M'.mem := by
  obtain ⟨b, hb⟩ : ∃ b, M.reg .sp = b + BitVec.ofNat 32 96 := ⟨M.reg .sp - BitVec.ofNat 32 96, (BitVec.sub_add_cancel _ _).symm⟩
  have eb : M.reg .sp - BitVec.ofNat 32 96 = b := by rw [hb]; exact BitVec.add_sub_cancel _ _
  obtain ⟨F, m, z, c⟩ := M
  simp only at hp h1 hb eb
  have C0 := ctx_of A hu hb (Only.refl _ _)
  obtain ⟨f1, m1, e1, S1, o1, g0, g1, gs⟩ := runL_entry (adr := adr) (m := m) C0.wrB C0.alB hb
  have C1 := ctx_of A hu hb o1
  rw [hp] at g0
  rw [h1] at g1
  have lp : lanes m1 p = lanes m p := lanes_only o1 C0.sepPB
  obtain ⟨z1, c1, r1⟩ := reaches_block (prog := prog) e1 z c ([.ins (.adr .r8 .roundConstants), .ins (.sub false .r8 .r8 (.reg .r1 (.lsl 1))), .ins (.lsl true .r1 .r1 31),
      .ins (.beq .permuteIntern)] ++ rest)
  rw [← target_nrounds] at r1
  have e2 : runL P adr [.adr .r8 .roundConstants, .sub false .r8 .r8 (.reg .r1 (.lsl 1))] f1 m1 =
      some (set (set f1 .r8 (adr .roundConstants)) .r8 (adr .roundConstants - f1 .r1 <<< 1), m1) := rfl
  rw [g1, ht, shl1 n hn, add_sub_frame t (by omega), show 40 - 2 * n = 2 * (20 - n) by omega] at e2
  generalize hf2 : set (set f1 .r8 _) .r8 (t + BitVec.ofNat 32 (2 * (20 - n))) = f2 at e2
  obtain ⟨z2, c2, r2⟩ := reaches_block (prog := prog) e2 z1 c1
    ([.ins (.lsl true .r1 .r1 31), .ins (.beq .permuteIntern)] ++ rest)
  have h21 : f2 .r1 = BitVec.ofNat 32 n := by rw [← hf2]; exact g1
  have r3 := Reaches.one (P := P) (adr := adr) (prog := prog) (a := .run ([.ins (.lsl true .r1 .r1 31), .ins (.beq .permuteIntern)] ++ rest) ⟨f2, m1, z2, c2⟩)
    (b := .run ([.ins (.beq .permuteIntern)] ++ rest)
    ⟨set f2 .r1 (f2 .r1 <<< 31), m1, f2 .r1 <<< 31 == 0, (f2 .r1).getLsbD 1⟩) rfl
  generalize hf3 : set f2 .r1 (f2 .r1 <<< 31) = f3 at r3
  rw [h21, parity31 n hn] at r3
  have h38 : f3 .r8 = t + BitVec.ofNat 32 (2 * (20 - n)) := by rw [← hf3, ← hf2]; rfl
  have h30 : f3 .r0 = p := by rw [← hf3, ← hf2]; exact g0
  have h3s : f3 .sp = b := by rw [← hf3, ← hf2]; exact gs
  have fin : ∀ {f' m' z' c'}, Reaches P adr prog (.run (target prog .permuteNrounds) ⟨F, m, z, c⟩) (.ret (F .lr) ⟨f', m', z', c'⟩) →
      Back F f' → Only (Wr b p) m1 m' → lanes m' p = Keccak.p n (lanes m p) →
      ∃ M', Returns P adr prog .permuteNrounds ⟨F, m, z, c⟩ M' ∧ lanes M'.mem p = Keccak.p n (lanes m p) ∧ Back F M'.reg ∧
        Only (fun x => In p 50 x ∨ In (F .sp - BitVec.ofNat 32 96) 96 x) m M'.mem := by
    intro f' m' z' c' r B o l
    refine ⟨⟨f', m', z', c'⟩, r, l, B, ?_⟩
    rw [eb]
    refine (o1.mono fun x h => .inr h).trans (o.mono ?_)
    rintro x (h | h)
    · exact .inl h
    · exact .inr (in_mono (by decide) h)
  by_cases hev : n % 2 = 0
  · rw [decide_eq_true hev] at r3
    obtain ⟨f4, m4, z4, c4, r4, B, o4, l4⟩ := finish_even (adr := adr) C1 S1 hb h0 hn hev ⟨h30, h3s, Only.refl _ m1⟩ h38 true ((BitVec.ofNat 32 n).getLsbD 1)
    refine fin (z' := z4) (c' := c4) (((r1.trans r2).trans r3).trans (.step ?_)) B o4 (by rw [l4, lp])
    show Reaches P adr prog (.run (target prog .permuteIntern) _) _
    rw [target_intern]
    exact r4
  · rw [decide_eq_false hev] at r3
    obtain ⟨f5, m5, e5, l5, o5, g50, g5s, g58, g511, g512, g5l⟩ := runL_copy (adr := adr) (f := f3) (m := m1) C1.rdP C1.alP C1.writeQ.wr C1.alB C1.sepPQ
      h30 h3s
    have O5 : ∀ j n, j + n ≤ 50 → ∀ x, In (p + BitVec.ofNat 32 j) n x → ¬ In b 50 x := fun j n h x hx => C1.sepPQ x (in_add h hx)
    obtain ⟨f6, e6, q6, g60, g6s, g68⟩ := runL_setupOdd (adr := adr) (m := m5) C1.readP g50 (by rw [g511, get32_only o5 (O5 _ _ (by decide))])
      (by rw [g512, get32_only o5 (O5 _ _ (by decide))]) (by rw [g5l, get16_only o5 (O5 _ _ (by decide))])
    obtain ⟨z5, c5, r5⟩ := reaches_block (prog := prog) (runL_trans e5 e6) false ((BitVec.ofNat 32 n).getLsbD 1)
      (.ins (.b .permuteRoundOdd) :: permute20rounds)
    have o5' : Only (Wr b p) m1 m5 := o5.mono fun x h => .inr h
    have l5p : lanes m5 p = lanes m1 p := lanes_only o5 C1.sepPQ
    obtain ⟨f7, m7, z7, c7, r7, B, o7, l7⟩ := finish_odd (adr := adr) C1 S1 hb hn (by omega)
      ⟨g60.trans g50, g6s.trans (g5s.trans h3s), o5'⟩ (g68.trans (g58.trans h38)) (by rw [q6, l5p, l5]; exact Arm.V7.carryOdd_ok _) z5 c5
    refine fin (((r1.trans r2).trans r3).trans (.step (.trans ?_ r7))) B o7 (by rw [l7, l5, lp])
    rw [← target_odd]
    exact r5.trans (.one rfl)

/-- `KeccakP400_Permute_20rounds` -/
theorem returns_permute20rounds {M : Mach} (hp : M.reg .r0 = p) (ht : adr .roundConstants20 = t) (hu : P.strict = false) (A : Areas P M p 96 t table) :
    ∃ M', Returns P adr prog .permute20rounds M M' ∧ lanes M'.mem p = Keccak.p 20 (lanes M.mem p) ∧ Back M.reg M'.reg ∧
      Only (fun x => In p 50 x ∨ In (M.reg .sp - BitVec.ofNat 32 96) 96 x) M.mem M'.mem := by
  obtain ⟨b, hb⟩ : ∃ b, M.reg .sp = b + BitVec.ofNat 32 96 := ⟨M.reg .sp - BitVec.ofNat 32 96, (BitVec.sub_add_cancel _ _).symm⟩
  have eb : M.reg .sp - BitVec.ofNat 32 96 = b := by rw [hb]; exact BitVec.add_sub_cancel _ _
  obtain ⟨F, m, z, c⟩ := M
  simp only at hp hb eb
  have C0 := ctx_of A hu hb (Only.refl _ _)
  obtain ⟨f1, m1, e1, S1, o1, g0, g1, gs⟩ := runL_entry (adr := adr) (m := m) C0.wrB C0.alB hb
  have C1 := ctx_of A hu hb o1
  rw [hp] at g0
  have lp : lanes m1 p = lanes m p := lanes_only o1 C0.sepPB
  obtain ⟨z1, c1, r1⟩ := reaches_block (prog := prog) e1 z c (.ins (.adr .r8 .roundConstants20) :: .lab .permuteIntern :: codeIntern)
  obtain ⟨f4, m4, z4, c4, r4, B, o4, l4⟩ := finish_even (adr := adr) (f := set f1 .r8 (adr .roundConstants20)) (n := 20) C1 S1 hb (by decide) (by decide) (by decide)
    ⟨g0, gs, Only.refl _ m1⟩ (ht.trans (BitVec.add_zero _).symm) z1 c1
  rw [← target_20] at r1
  refine ⟨⟨f4, m4, z4, c4⟩, r1.trans (.step (.step ?_)), by rw [← lp]; exact l4, B, ?_⟩
  · exact r4
  · rw [eb]
    refine (o1.mono fun x h => .inr h).trans (o4.mono ?_)
    rintro x (h | h)
    · exact .inl h
    · exact .inr (in_mono (by decide) h)

end

end Model.KeccakAsm.V7
