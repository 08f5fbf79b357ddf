import Verif.Spec.InlineAsm
import Verif.Proof.AsconArm
import Verif.Proof.A128
/-!
# Placement of the operands of inline assembly
-/

namespace C.Arm

variable {κ ρ : Type}

/-- The operand that an instruction writes. -/
def Ins.dst : Ins κ → κ
  | .eor d _ _ | .and d _ _ | .orr d _ _ | .bic d _ _ | .orn d _ _ | .mvn d _ | .mov d _ | .ror d _ _ => d

/-- The names in a second operand. -/
def Opd.names : Opd κ → List κ
  | .reg x => [x]
  | .imm _ => []
  | .ror x _ => [x]

/-- The names in a second operand that must be registers. -/
def Opd.regs : Opd κ → List κ
  | .reg _ => []
  | .imm _ => []
  | .ror x _ => [x]

/-- The operands that an instruction reads. -/
def Ins.srcs : Ins κ → List κ
  | .eor _ a b | .and _ a b | .orr _ a b | .bic _ a b | .orn _ a b => a :: b.names
  | .mvn _ b | .mov _ b => b.names
  | .ror _ a b => [a, b]

/-- The operands of an instruction that must be registers. -/
def Ins.regs : Ins κ → List κ
  | .eor d a b | .and d a b | .orr d a b | .bic d a b | .orn d a b => d :: a :: b.regs
  | .mvn d b | .mov d b => d :: b.regs
  | .ror d a b => [d, a, b]

/-- The value that an instruction writes. -/
def Ins.res (g : κ → BitVec 32) : Ins κ → BitVec 32
  | .eor _ a b => g a ^^^ b.val g
  | .and _ a b => g a &&& b.val g
  | .orr _ a b => g a ||| b.val g
  | .bic _ a b => g a &&& ~~~ b.val g
  | .orn _ a b => g a ||| ~~~ b.val g
  | .mvn _ b => ~~~ b.val g
  | .mov _ b => b.val g
  | .ror _ a b => (g a).rotateRight ((g b).toNat % 256)

theorem step_eq [DecidableEq κ] (g : κ → BitVec 32) (i : Ins κ) : step g i = set g i.dst (i.res g) := by
  cases i <;> rfl

theorem toReg_eq {l : Loc ρ} {r : ρ} (h : l = .reg r) : l.toReg = some r := by rw [h]; rfl

theorem Opd.place_ok (l : κ → Loc ρ) (b : Opd κ) (h : ∀ x ∈ b.regs, ∃ r, l x = .reg r) :
    ∃ b', b.place l = some b' ∧ ∀ f, b'.val f = b.val fun x => (l x).val f := by
  cases b with
  | reg x =>
    refine ⟨_, rfl, fun f => ?_⟩
    simp only [Opd.val]
    cases l x <;> rfl
  | imm v => exact ⟨_, rfl, fun f => rfl⟩
  | ror x n =>
    obtain ⟨r, hr⟩ := h x (by simp [Opd.regs])
    refine ⟨.ror r n, by simp [Opd.place, hr, Loc.toReg], fun f => ?_⟩
    simp only [Opd.val, hr, Loc.val]

theorem Ins.place_ok (l : κ → Loc ρ) (i : Ins κ) (h : ∀ x ∈ i.regs, ∃ r, l x = .reg r) :
    ∃ j, i.place l = some j ∧ l i.dst = .reg j.dst ∧ ∀ f, j.res f = i.res fun x => (l x).val f := by
  cases i with
  | mvn d b =>
    obtain ⟨rd, hd⟩ := h d (by simp [Ins.regs])
    obtain ⟨b', hb, vb⟩ := b.place_ok l fun x hx => h x (by simp [Ins.regs, hx])
    exact ⟨.mvn rd b', by simp [Ins.place, hd, hb, Loc.toReg], hd, fun f => by simp only [Ins.res, vb]⟩
  | mov d b =>
    obtain ⟨rd, hd⟩ := h d (by simp [Ins.regs])
    obtain ⟨b', hb, vb⟩ := b.place_ok l fun x hx => h x (by simp [Ins.regs, hx])
    exact ⟨.mov rd b', by simp [Ins.place, hd, hb, Loc.toReg], hd, fun f => by simp only [Ins.res, vb]⟩
  | ror d a b =>
    obtain ⟨rd, hd⟩ := h d (by simp [Ins.regs])
    obtain ⟨ra, ha⟩ := h a (by simp [Ins.regs])
    obtain ⟨rb, hb⟩ := h b (by simp [Ins.regs])
    exact ⟨.ror rd ra rb, by simp [Ins.place, hd, ha, hb, Loc.toReg], hd, fun f => by simp only [Ins.res, ha, hb, Loc.val]⟩
  | eor d a b =>
    obtain ⟨rd, hd⟩ := h d (by simp [Ins.regs])
    obtain ⟨ra, ha⟩ := h a (by simp [Ins.regs])
    obtain ⟨b', hb, vb⟩ := b.place_ok l fun x hx => h x (by simp [Ins.regs, hx])
    exact ⟨.eor rd ra b', by simp [Ins.place, hd, ha, hb, Loc.toReg], hd, fun f => by simp only [Ins.res, vb, ha, Loc.val]⟩
  | and d a b =>
    obtain ⟨rd, hd⟩ := h d (by simp [Ins.regs])
    obtain ⟨ra, ha⟩ := h a (by simp [Ins.regs])
    obtain ⟨b', hb, vb⟩ := b.place_ok l fun x hx => h x (by simp [Ins.regs, hx])
    exact ⟨.and rd ra b', by simp [Ins.place, hd, ha, hb, Loc.toReg], hd, fun f => by simp only [Ins.res, vb, ha, Loc.val]⟩
  | orr d a b =>
    obtain ⟨rd, hd⟩ := h d (by simp [Ins.regs])
    obtain ⟨ra, ha⟩ := h a (by simp [Ins.regs])
    obtain ⟨b', hb, vb⟩ := b.place_ok l fun x hx => h x (by simp [Ins.regs, hx])
    exact ⟨.orr rd ra b', by simp [Ins.place, hd, ha, hb, Loc.toReg], hd, fun f => by simp only [Ins.res, vb, ha, Loc.val]⟩
  | bic d a b =>
    obtain ⟨rd, hd⟩ := h d (by simp [Ins.regs])
    obtain ⟨ra, ha⟩ := h a (by simp [Ins.regs])
    obtain ⟨b', hb, vb⟩ := b.place_ok l fun x hx => h x (by simp [Ins.regs, hx])
    exact ⟨.bic rd ra b', by simp [Ins.place, hd, ha, hb, Loc.toReg], hd, fun f => by simp only [Ins.res, vb, ha, Loc.val]⟩
  | orn d a b =>
    obtain ⟨rd, hd⟩ := h d (by simp [Ins.regs])
    obtain ⟨ra, ha⟩ := h a (by simp [Ins.regs])
    obtain ⟨b', hb, vb⟩ := b.place_ok l fun x hx => h x (by simp [Ins.regs, hx])
    exact ⟨.orn rd ra b', by simp [Ins.place, hd, ha, hb, Loc.toReg], hd, fun f => by simp only [Ins.res, vb, ha, Loc.val]⟩

theorem Opd.val_congr {g g' : κ → BitVec 32} (b : Opd κ) (h : ∀ x ∈ b.names, g x = g' x) : b.val g = b.val g' := by
  cases b <;> simp_all [Opd.val, Opd.names]

theorem Ins.res_congr {g g' : κ → BitVec 32} (i : Ins κ) (h : ∀ x ∈ i.srcs, g x = g' x) : i.res g = i.res g' := by
  cases i with
  | mvn d b => simp only [Ins.res, b.val_congr (g := g) (g' := g') fun x hx => h x hx]
  | mov d b => simp only [Ins.res, b.val_congr (g := g) (g' := g') fun x hx => h x hx]
  | ror d a b => simp only [Ins.res, h a (by simp [Ins.srcs]), h b (by simp [Ins.srcs])]
  | _ d a b =>
    simp only [Ins.res, h a (by simp [Ins.srcs]), b.val_congr (g := g) (g' := g') fun x hx => h x (by simp [Ins.srcs, hx])]

variable [DecidableEq κ] [DecidableEq ρ]

/-- One instruction.  The names in `N` are those whose value matters afterwards. -/
theorem place_step (l : κ → Loc ρ) (N : List κ) (i : Ins κ) (hr : ∀ x ∈ i.regs, ∃ r, l x = .reg r)
    (hs : ∀ y ∈ N, y ≠ i.dst → l y ≠ l i.dst) (f : ρ → BitVec 32) (g : κ → BitVec 32) (hg : ∀ x ∈ i.srcs ++ N, (l x).val f = g x) :
    ∃ j, i.place l = some j ∧ (∀ x ∈ N, (l x).val (step f j) = step g i x) ∧ ∀ r, l i.dst ≠ .reg r → step f j r = f r := by
  obtain ⟨j, hj, hd, hv⟩ := i.place_ok l hr
  refine ⟨j, hj, fun x hx => ?_, fun r hr => ?_⟩
  · rw [step_eq, step_eq, hv, i.res_congr fun x hx => hg x (List.mem_append_left _ hx)]
    by_cases e : x = i.dst
    · rw [e, hd]; simp [Loc.val, set]
    · have h1 := hs x hx e
      have h2 := hg x (List.mem_append_right _ hx)
      simp only [set, if_neg e]
      cases hl : l x with
      | imm v => rw [hl] at h2; exact h2
      | reg r =>
        rw [hl] at h2
        simp only [Loc.val, set] at h2 ⊢
        rw [if_neg, h2]
        intro e'
        exact h1 (by rw [hl, hd, e'])
  · rw [step_eq]
    simp only [set]
    rw [if_neg]
    intro e
    exact hr (by rw [hd, e])

/-- A sequence of instructions. -/
theorem place_exec (l : κ → Loc ρ) (N : List κ) (p : List (Ins κ)) (hr : ∀ i ∈ p, ∀ x ∈ i.regs, ∃ r, l x = .reg r)
    (hn : ∀ i ∈ p, ∀ x ∈ i.srcs, x ∈ N) (hs : ∀ i ∈ p, ∀ y ∈ N, y ≠ i.dst → l y ≠ l i.dst) (f : ρ → BitVec 32)
    (g : κ → BitVec 32) (hg : ∀ x ∈ N, (l x).val f = g x) :
    ∃ q, assemble l p = some q ∧ (∀ x ∈ N, (l x).val (exec q f) = exec p g x) ∧
      ∀ r, (∀ i ∈ p, l i.dst ≠ .reg r) → exec q f r = f r := by
  induction p generalizing f g with
  | nil => exact ⟨[], rfl, hg, fun r _ => rfl⟩
  | cons i p ih =>
    obtain ⟨j, hj, hv, hk⟩ := place_step l N i (hr i (by simp)) (hs i (by simp)) f g fun x hx => by
      rcases List.mem_append.mp hx with h | h
      · exact hg x (hn i (by simp) x h)
      · exact hg x h
    obtain ⟨q, hq, hv', hk'⟩ := ih (fun i hi => hr i (by simp [hi])) (fun i hi => hn i (by simp [hi]))
      (fun i hi => hs i (by simp [hi])) (step f j) (step g i) hv
    refine ⟨j :: q, by simp [assemble, hj, hq], hv', fun r hr => ?_⟩
    rw [exec_cons, hk' r fun i hi => hr i (by simp [hi]), hk r (hr i (by simp))]

end C.Arm

namespace Model.Opt.Arm
open C C.Arm Spec.Ascon Spec.InlineAsm

theorem split_iff (e o : BitVec 32) (x : BitVec 64) : Split e o x ↔ Bi32.lane e o = Bi32.φ x := by
  constructor
  · intro h
    apply BitVec.eq_of_getLsbD_eq; intro i hi
    rw [Bi32.getLsbD_lane, Bi32.φ, Bits.getLsbD_perm _ _ hi]
    split
    · exact (h i ‹_›).1
    · exact (h (i - 32) (by omega)).2
  · intro h j hj
    have h1 := congrArg (fun z => z.getLsbD j) h
    have h2 := congrArg (fun z => z.getLsbD (32 + j)) h
    simp only [Bi32.getLsbD_lane, Bi32.φ, Bits.getLsbD_perm _ _ (show j < 64 by omega),
      Bits.getLsbD_perm _ _ (show 32 + j < 64 by omega), if_pos hj, if_neg (show ¬ 32 + j < 32 by omega),
      Nat.add_sub_cancel_left] at h1 h2
    exact ⟨h1, h2⟩

theorem holds_iff (v : Reg → BitVec 32) (S : State) : Holds v S ↔ store v = rep Bi32.φ S := by
  simp only [store, rep, State.mk.injEq, ← split_iff]
  exact ⟨fun h => ⟨h.h0, h.h1, h.h2, h.h3, h.h4⟩, fun ⟨a, b, c, d, e⟩ => ⟨a, b, c, d, e⟩⟩

theorem lin_rep (v : Reg → BitVec 32) (S : State) (c : BitVec 64) (h : Holds v S) (hc : Split (v .ce) (v .co) c) :
    lin (sb (v .x0e) (v .x1e) (v .x2e) (v .x3e) (v .x4e) (v .ce)) (sb (v .x0o) (v .x1o) (v .x2o) (v .x3o) (v .x4o) (v .co)) =
      rep Bi32.φ (Spec.InlineAsm.roundWith c S) := by
  have hb : Bi32.round (rep Bi32.φ S) (Bi32.φ c) = rep Bi32.φ (Spec.InlineAsm.roundWith c S) := by
    have h := Bi32.bitRep
    rw [Spec.InlineAsm.roundWith, ← Opt64.roundWith_spec, Bi32.round]
    simp only [Opt64.roundWith, rep, ← h.xor, ← h.and, ← h.not, h.ror _ 1 (by omega), h.ror _ (6 - 1) (by omega),
      h.ror _ 7 (by omega), h.ror _ (41 - 7) (by omega), h.ror _ 10 (by omega), h.ror _ 19 (by omega),
      h.ror _ (28 - 19) (by omega), h.ror _ 39 (by omega), h.ror _ (61 - 39) (by omega)]
  rw [← hb, ← (holds_iff v S).mp h, ← (split_iff _ _ _).mp hc, round_words]
  simp only [sbE, sbO, store, w0_lane, w1_lane]

/-- The values that the operands have at the start. -/
def start {ρ : Type} (A : Asm Reg) (l : Reg → Loc ρ) (v : Reg → BitVec 32) (f : ρ → BitVec 32) (x : Reg) : BitVec 32 :=
  if x ∈ A.inout ++ A.inputs.map Prod.fst then v x else (l x).val f

theorem start_val {ρ : Type} {A : Asm Reg} {l : Reg → Loc ρ} {v : Reg → BitVec 32} {f : ρ → BitVec 32} (h : A.Entry l v f) (x : Reg) :
    (l x).val f = start A l v f x := by
  unfold start
  split
  · exact h x ‹_›
  · rfl

theorem holds_congr {u v : Reg → BitVec 32} {S : State} (h : Holds u S) (e : ∀ x ∈ words, u x = v x) : Holds v S where
  h0 := by rw [← e .x0e (by decide), ← e .x0o (by decide)]; exact h.h0
  h1 := by rw [← e .x1e (by decide), ← e .x1o (by decide)]; exact h.h1
  h2 := by rw [← e .x2e (by decide), ← e .x2o (by decide)]; exact h.h2
  h3 := by rw [← e .x3e (by decide), ← e .x3o (by decide)]; exact h.h3
  h4 := by rw [← e .x4e (by decide), ← e .x4o (by decide)]; exact h.h4

/-- After the block the operands in `N` have the values that the instructions give to the names, and registers of other operands
are unchanged. -/
def Tracks (A : Asm Reg) (ok : (ρ : Type) → (Reg → Loc ρ) → Prop) (N : List Reg) : Prop :=
  ∀ (ρ : Type) [DecidableEq ρ] (isLow : ρ → Bool) (l : Reg → Loc ρ), A.Permits isLow l → ok ρ l →
    ∀ (f : ρ → BitVec 32) (u : Reg → BitVec 32), (∀ x, (l x).val f = u x) →
    ∃ q, assemble l A.code = some q ∧ (∀ x ∈ N, (l x).val (exec q f) = exec A.code u x) ∧
      ∀ r, (∀ x ∈ A.inout ++ A.temps, l x ≠ .reg r) → exec q f r = f r

theorem Tracks.computes {A : Asm Reg} {ok : (ρ : Type) → (Reg → Loc ρ) → Prop} {g : BitVec 64 → State → State} {N : List Reg}
    (h : Tracks A ok N) (hw : ∀ x ∈ words, x ∈ N)
    (hg : ∀ u v S c, (∀ x ∈ A.inout ++ A.inputs.map Prod.fst, u x = v x) → Holds v S → Split (v .ce) (v .co) c →
      Holds (exec A.code u) (g c S)) :
    Computes A ok g := by
  intro ρ _ isLow l f v S c hp hok he hS hc
  obtain ⟨q, hq, hv, hk⟩ := h ρ isLow l hp hok f (start A l v f) (start_val he)
  refine ⟨q, hq, ?_, hk⟩
  exact holds_congr (hg (start A l v f) v S c (fun x hx => if_pos hx) hS hc) fun x hx => (hv x (hw x hx)).symm

theorem store_congr {u v : Reg → BitVec 32} (h : ∀ x ∈ words, u x = v x) : store u = store v := by
  simp only [store]
  rw [h .x0e (by decide), h .x0o (by decide), h .x1e (by decide), h .x1o (by decide), h .x2e (by decide), h .x2o (by decide),
    h .x3e (by decide), h .x3o (by decide), h .x4e (by decide), h .x4o (by decide)]

theorem Tracks.same {A : Asm Reg} {ok : (ρ : Type) → (Reg → Loc ρ) → Prop} {R : State → BitVec 64 → State} {N : List Reg}
    (h : Tracks A ok N) (hw : ∀ x ∈ words, x ∈ N)
    (hg : ∀ u s c, (∀ x ∈ A.inout ++ A.inputs.map Prod.fst, u x = load s c x) → store (exec A.code u) = R s c) : Same A ok R := by
  intro ρ _ isLow l f s c hp hok he
  obtain ⟨q, hq, hv, hk⟩ := h ρ isLow l hp hok f (start A l (load s c) f) (start_val he)
  refine ⟨q, hq, ?_⟩
  rw [← hg (start A l (load s c) f) s c fun x hx => if_pos hx]
  exact store_congr fun x hx => hv x (hw x hx)

/-- Outputs are in different registers. -/
theorem sep_out {ρ : Type} {A : Asm Reg} {isLow : ρ → Bool} {l : Reg → Loc ρ} (h : A.Permits isLow l) {d y : Reg}
    (hd : d ∈ A.inout ++ A.temps) (hy : y ∈ A.inout ++ A.temps) (n : y ≠ d) : l y ≠ l d := fun e => n (h.inj y hy d hd e)

/-- An immediate input is in no register. -/
theorem apart_imm {ρ : Type} {A : Asm Reg} {isLow : ρ → Bool} {l : Reg → Loc ρ} (h : A.Permits isLow l) {x : Reg}
    (hx : (x, Constr.i) ∈ A.inputs) : A.Apart l x := by
  intro y hy e
  obtain ⟨v, hv⟩ := h.imm x hx
  obtain ⟨r, hr⟩ := h.out y hy
  rw [hv, hr] at e
  cases e

/-- A block where no input shares a register with an output. -/
theorem tracks_apart {A : Asm Reg} {ok : (ρ : Type) → (Reg → Loc ρ) → Prop}
    (hregs : ∀ i ∈ A.code, ∀ x ∈ i.regs, x ∈ A.inout ++ A.temps)
    (hdst : ∀ i ∈ A.code, i.dst ∈ A.inout ++ A.temps)
    (hsrcs : ∀ i ∈ A.code, ∀ x ∈ i.srcs, x ∈ A.inout ++ A.temps ++ A.inputs.map Prod.fst)
    (hap : ∀ {ρ : Type} (isLow : ρ → Bool) (l : Reg → Loc ρ), A.Permits isLow l → ok ρ l → ∀ x ∈ A.inputs.map Prod.fst, A.Apart l x) :
    Tracks A ok (A.inout ++ A.temps ++ A.inputs.map Prod.fst) := by
  intro ρ _ isLow l hp hok f u hu
  obtain ⟨q, hq, hv, hk⟩ := place_exec l (A.inout ++ A.temps ++ A.inputs.map Prod.fst) A.code
    (fun i hi x hx => hp.out x (hregs i hi x hx)) hsrcs (fun i hi y hy n => by
      rcases List.mem_append.mp hy with hy | hy
      · exact sep_out hp (hdst i hi) hy n
      · exact hap isLow l hp hok y hy _ (hdst i hi)) f u fun x _ => hu x
  exact ⟨q, hq, hv, fun r hr => hk r fun i hi => hr _ (hdst i hi)⟩

theorem armv6_tracks : Tracks Armv6.asm (fun _ _ => True) (Armv6.asm.inout ++ Armv6.asm.temps ++ Armv6.asm.inputs.map Prod.fst) := by
  refine tracks_apart (by decide) (by decide) (by decide) ?_
  intro ρ isLow l hp _ x hx
  simp only [Armv6.asm, List.map_cons, List.map_nil, List.mem_cons, List.not_mem_nil, or_false] at hx
  rcases hx with rfl | rfl <;> exact apart_imm hp (by decide)

theorem armv6 : Computes Armv6.asm (fun _ _ => True) Spec.InlineAsm.roundWith := by
  refine armv6_tracks.computes (by decide) ?_
  intro u v S c hu hS hc
  have hS' : Holds u S := holds_congr hS fun x hx => (hu x (List.mem_append_left _ hx)).symm
  rw [← hu .ce (by decide), ← hu .co (by decide)] at hc
  rw [holds_iff, Armv6.exec_round, lin_rep u S c hS' hc]

theorem armv7m_tracks : Tracks Armv7m.asm (fun _ _ => True) (Armv7m.asm.inout ++ Armv7m.asm.temps ++ Armv7m.asm.inputs.map Prod.fst) := by
  refine tracks_apart (by decide) (by decide) (by decide) ?_
  intro ρ isLow l hp _ x hx
  simp only [Armv7m.asm, List.map_cons, List.map_nil, List.mem_cons, List.not_mem_nil, or_false] at hx
  rcases hx with rfl | rfl <;> exact apart_imm hp (by decide)

theorem armv7m : Computes Armv7m.asm (fun _ _ => True) (fun c S => Armv7m.rot (Spec.InlineAsm.roundWith c S)) := by
  refine armv7m_tracks.computes (by decide) ?_
  intro u v S c hu hS hc
  have hS' : Holds u S := holds_congr hS fun x hx => (hu x (List.mem_append_left _ hx)).symm
  rw [← hu .ce (by decide), ← hu .co (by decide)] at hc
  rw [holds_iff, Armv7m.exec_round, lin_rep u S c hS' hc]
  rfl

theorem split_zero : Split 0 0 0 := by intro j _; simp

theorem armv67m_tracks : Tracks A128.Opt32.asm (fun _ _ => True) (A128.Opt32.asm.inout ++ A128.Opt32.asm.temps ++ A128.Opt32.asm.inputs.map Prod.fst) := by
  refine tracks_apart (by decide) (by decide) (by decide) ?_
  intro ρ isLow l hp _ x hx
  simp [A128.Opt32.asm] at hx

theorem armv67m : Computes A128.Opt32.asm (fun _ _ => True) (fun _ S => Spec.InlineAsm.roundWith 0 S) := by
  refine armv67m_tracks.computes (by decide) ?_
  intro u v S c hu hS hc
  let w : Reg → BitVec 32 := fun x => if x = .ce ∨ x = .co then 0 else u x
  have hS' : Holds w S := holds_congr hS fun x hx => by
    have := hu x (List.mem_append_left _ hx)
    simp only [w]
    rw [if_neg, this]
    rintro (rfl | rfl) <;> simp [words] at hx
  have := lin_rep w S 0 hS' split_zero
  rw [holds_iff, A128.Opt32.exec_round, ← this]
  rfl

set_option maxRecDepth 4000 in
/-- Only the first instruction reads `C_e`. -/
theorem armv6m_tracks : Tracks Armv6m.asm (fun _ l => Armv6m.asm.Apart l .co) (words ++ [.tmp0, .tmp1, .tmp2, .co]) := by
  intro ρ _ isLow l hp hok f u hu
  have hdst : ∀ i ∈ Armv6m.asm.code, i.dst ∈ Armv6m.asm.inout ++ Armv6m.asm.temps := by decide
  have hregs : ∀ i ∈ Armv6m.asm.code, ∀ x ∈ i.regs, x ∈ Armv6m.asm.inout ++ Armv6m.asm.temps := by decide
  have hr : ∀ i ∈ Armv6m.asm.code, ∀ x ∈ i.regs, ∃ r, l x = .reg r := fun i hi x hx => hp.out x (hregs i hi x hx)
  generalize hN : words ++ [Reg.tmp0, .tmp1, .tmp2, .co] = N
  have hs : ∀ i ∈ Armv6m.asm.code, ∀ y ∈ N, y ≠ i.dst → l y ≠ l i.dst := by
    intro i hi y hy n
    by_cases e : y = .co
    · rw [e]; exact hok _ (hdst i hi)
    · refine sep_out hp (hdst i hi) ?_ n
      rw [← hN] at hy
      revert e hy
      cases y <;> decide
  have hsrc : ∀ j ∈ Armv6m.asm.code.tail, ∀ x ∈ j.srcs, x ∈ N := by rw [← hN]; decide
  obtain ⟨i, p, hc⟩ : ∃ i p, Armv6m.asm.code = i :: p := ⟨_, _, rfl⟩
  rw [hc] at hr hs hsrc hdst ⊢
  obtain ⟨j, hj, hv, hk⟩ := place_step l N i (hr i (by simp)) (hs i (by simp)) f u fun x _ => hu x
  obtain ⟨q, hq, hv', hk'⟩ := place_exec l N p (fun i hi => hr i (by simp [hi])) (fun j hj => hsrc j hj)
    (fun i hi => hs i (by simp [hi])) (step f j) (step u i) hv
  refine ⟨j :: q, by simp [assemble, hj, hq], hv', fun r hr => ?_⟩
  rw [exec_cons, hk' r fun i hi => hr _ (hdst i (by simp [hi])), hk r (hr _ (hdst i (by simp)))]

/-! ### `C_o` in the register of `tmp0` -/

/-- `tmp0` in place of `C_o` in a second operand. -/
def subOpd : Opd Reg → Opd Reg
  | .reg .co => .reg .tmp0
  | b => b

/-- `tmp0` in place of `C_o` in an instruction. -/
def subIns : Ins Reg → Ins Reg
  | .eor d a b => .eor d a (subOpd b)
  | .and d a b => .and d a (subOpd b)
  | .orr d a b => .orr d a (subOpd b)
  | .bic d a b => .bic d a (subOpd b)
  | .orn d a b => .orn d a (subOpd b)
  | .mvn d b => .mvn d (subOpd b)
  | .mov d b => .mov d (subOpd b)
  | .ror d a b => .ror d a b

theorem subIns_place {ρ : Type} {l : Reg → Loc ρ} (h : l .co = l .tmp0) (i : Ins Reg) : (subIns i).place l = i.place l := by
  have k : ∀ b, (subOpd b).place l = b.place l := by
    intro b
    rcases b with r | v | ⟨r, n⟩
    · cases r <;> first | rfl | simp only [subOpd, Opd.place, h]
    · rfl
    · rfl
  cases i <;> simp only [subIns, Ins.place, k]

theorem assemble_sub {ρ : Type} {l : Reg → Loc ρ} (h : l .co = l .tmp0) (p : List (Ins Reg)) :
    assemble l (p.map subIns) = assemble l p := by
  induction p with
  | nil => rfl
  | cons i p ih => simp only [List.map_cons, assemble, ih, subIns_place h]

/-- The registers after the S-box instructions: `x0_o` is used in place of the constant. -/
theorem exec1_sub (f : Reg → BitVec 32) :
    let g := exec (Armv6m.prog1.map subIns) f
    let e := sb (f .x0e) (f .x1e) (f .x2e) (f .x3e) (f .x4e) (f .ce)
    let o := sb (f .x0o) (f .x1o) (f .x2o) (f .x3o) (f .x4o) (f .x0o)
    g .x0o = e.y0 ∧ g .x1o = e.y1 ∧ g .x2o = e.y2 ∧ g .x2e = e.y3 ∧ g .tmp2 = e.y4 ∧
    g .tmp0 = o.y0 ∧ g .x3o = o.y1 ∧ g .x4o = o.y2 ∧ g .x3e = o.y3 ∧ g .x4e = o.y4 := by
  unfold Armv6m.prog1 sb
  simp only [List.map_cons, List.map_nil, subIns, subOpd]
  simp only [exec_cons]
  simp only [step]
  simp only [exec_nil, C.Arm.set, Opd.val, reduceCtorEq, if_true, if_false]
  generalize f .ce = ce
  generalize f .x0e = a0
  generalize f .x1e = a1
  generalize f .x2e = a2
  generalize f .x3e = a3
  generalize f .x4e = a4
  generalize f .x0o = b0
  generalize f .x1o = b1
  generalize f .x2o = b2
  generalize f .x3o = b3
  generalize f .x4o = b4
  refine ⟨?_, ?_, ?_, ?_, ?_, ?_, ?_, ?_, ?_, ?_⟩
  · bitwise6 a0 a1 a2 a3 a4 ce
  · bitwise6 a0 a1 a2 a3 a4 ce
  · bitwise6 a0 a1 a2 a3 a4 ce
  · bitwise6 a0 a1 a2 a3 a4 ce
  · bitwise6 a0 a1 a2 a3 a4 ce
  · bitwise6 b0 b1 b2 b3 b4 b0
  · bitwise6 b0 b1 b2 b3 b4 b0
  · bitwise6 b0 b1 b2 b3 b4 b0
  · bitwise6 b0 b1 b2 b3 b4 b0
  · bitwise6 b0 b1 b2 b3 b4 b0

theorem prog2_sub : Armv6m.prog2.map subIns = Armv6m.prog2 := rfl

theorem exec_round_sub (f : Reg → BitVec 32) : store (exec (Armv6m.asm.code.map subIns) f) =
    lin (sb (f .x0e) (f .x1e) (f .x2e) (f .x3e) (f .x4e) (f .ce))
      (sb (f .x0o) (f .x1o) (f .x2o) (f .x3o) (f .x4o) (f .x0o)) := by
  rw [Armv6m.asm, List.map_append, prog2_sub, exec_append, Armv6m.exec2]
  obtain ⟨h0, h1, h2, h3, h4, k0, k1, k2, k3, k4⟩ := exec1_sub f
  rw [h0, h1, h2, h3, h4, k0, k1, k2, k3, k4]
  rw [not_rot _ (by omega), not_rot _ (by omega), xor_not, xor_not, xor_not, not_rot _ (by omega), xor_not]
  rfl

set_option maxRecDepth 4000 in
/-- With `C_o` in the register of `tmp0` and `C_e` in none of an output the round is computed with a wrong constant. -/
theorem armv6m_alias {ρ : Type} [DecidableEq ρ] (isLow : ρ → Bool) (l : Reg → Loc ρ) (f : ρ → BitVec 32)
    (v : Reg → BitVec 32) (S : State) (c : BitVec 64) (hp : Armv6m.asm.Permits isLow l) (hce : Armv6m.asm.Apart l .ce)
    (hco : l .co = l .tmp0) (he : Armv6m.asm.Entry l v f) (hS : Holds v S) (hc : Split (v .ce) (v .x0o) c) :
    ∃ p, assemble l Armv6m.asm.code = some p ∧ Holds (fun x => (l x).val (exec p f)) (Spec.InlineAsm.roundWith c S) := by
  generalize hN : words ++ [Reg.tmp0, .tmp1, .tmp2, .ce] = N
  have hdst : ∀ i ∈ Armv6m.asm.code.map subIns, i.dst ∈ Armv6m.asm.inout ++ Armv6m.asm.temps := by decide
  have hregs : ∀ i ∈ Armv6m.asm.code.map subIns, ∀ x ∈ i.regs, x ∈ Armv6m.asm.inout ++ Armv6m.asm.temps := by decide
  have hsrc : ∀ j ∈ Armv6m.asm.code.map subIns, ∀ x ∈ j.srcs, x ∈ N := by rw [← hN]; decide
  obtain ⟨q, hq, hv, -⟩ := place_exec l N (Armv6m.asm.code.map subIns) (fun i hi x hx => hp.out x (hregs i hi x hx)) hsrc
    (fun i hi y hy n => by
      by_cases e : y = .ce
      · rw [e]; exact hce _ (hdst i hi)
      · refine sep_out hp (hdst i hi) ?_ n
        rw [← hN] at hy
        revert e hy
        cases y <;> decide) f (start Armv6m.asm l v f) fun x _ => start_val he x
  rw [assemble_sub hco] at hq
  refine ⟨q, hq, holds_congr ?_ fun x hx => (hv x (by rw [← hN]; exact List.mem_append_left _ hx)).symm⟩
  have e : ∀ x ∈ Armv6m.asm.inout ++ Armv6m.asm.inputs.map Prod.fst, start Armv6m.asm l v f x = v x := fun x hx => if_pos hx
  rw [holds_iff, exec_round_sub, e .x0e (by decide), e .x1e (by decide), e .x2e (by decide), e .x3e (by decide), e .x4e (by decide),
    e .x0o (by decide), e .x1o (by decide), e .x2o (by decide), e .x3o (by decide), e .x4o (by decide), e .ce (by decide)]
  exact lin_rep (fun x => if x = .co then v .x0o else v x) S c (holds_congr hS fun x hx => by
    cases x <;> first | rfl | exact absurd hx (by decide)) hc

theorem armv6m : Computes Armv6m.asm (fun _ l => Armv6m.asm.Apart l .co) Spec.InlineAsm.roundWith := by
  refine armv6m_tracks.computes (by decide) ?_
  intro u v S c hu hS hc
  have hS' : Holds u S := holds_congr hS fun x hx => (hu x (List.mem_append_left _ hx)).symm
  rw [← hu .ce (by decide), ← hu .co (by decide)] at hc
  rw [holds_iff, Armv6m.exec_round, lin_rep u S c hS' hc]

theorem split_unique {e o : BitVec 32} {x y : BitVec 64} (hx : Split e o x) (hy : Split e o y) : x = y := by
  apply BitVec.eq_of_getLsbD_eq; intro i hi
  have h := hx (i / 2) (by omega)
  have k := hy (i / 2) (by omega)
  rcases Nat.mod_two_eq_zero_or_one i with m | m
  · rw [show i = 2 * (i / 2) by omega, ← h.1, k.1]
  · rw [show i = 2 * (i / 2) + 1 by omega, ← h.2, k.2]

theorem holds_unique {v : Reg → BitVec 32} {S T : State} (hS : Holds v S) (hT : Holds v T) : S = T := by
  cases S; cases T
  simp only [State.mk.injEq]
  exact ⟨split_unique hS.h0 hT.h0, split_unique hS.h1 hT.h1, split_unique hS.h2 hT.h2, split_unique hS.h3 hT.h3, split_unique hS.h4 hT.h4⟩

/-! ### The rounds of the models -/

theorem armv6_same : Same Armv6.asm (fun _ _ => True) Armv6.round := by
  refine armv6_tracks.same (by decide) fun u s c hu => ?_
  rw [Armv6.round, block, Armv6.exec_round, Armv6.exec_round, hu .x0e (by decide), hu .x1e (by decide), hu .x2e (by decide),
    hu .x3e (by decide), hu .x4e (by decide), hu .x0o (by decide), hu .x1o (by decide), hu .x2o (by decide), hu .x3o (by decide),
    hu .x4o (by decide), hu .ce (by decide), hu .co (by decide)]

theorem armv7m_same : Same Armv7m.asm (fun _ _ => True) Armv7m.round := by
  refine armv7m_tracks.same (by decide) fun u s c hu => ?_
  rw [Armv7m.round, block, Armv7m.exec_round, Armv7m.exec_round, hu .x0e (by decide), hu .x1e (by decide), hu .x2e (by decide),
    hu .x3e (by decide), hu .x4e (by decide), hu .x0o (by decide), hu .x1o (by decide), hu .x2o (by decide), hu .x3o (by decide),
    hu .x4o (by decide), hu .ce (by decide), hu .co (by decide)]

theorem armv6m_same : Same Armv6m.asm (fun _ l => Armv6m.asm.Apart l .co) Armv6m.round := by
  refine armv6m_tracks.same (by decide) fun u s c hu => ?_
  rw [Armv6m.round, block, Armv6m.exec_round, Armv6m.exec_round, hu .x0e (by decide), hu .x1e (by decide), hu .x2e (by decide),
    hu .x3e (by decide), hu .x4e (by decide), hu .x0o (by decide), hu .x1o (by decide), hu .x2o (by decide), hu .x3o (by decide),
    hu .x4o (by decide), hu .ce (by decide), hu .co (by decide)]

theorem armv67m_same : Same A128.Opt32.asm (fun _ _ => True) (fun s _ => A128.Opt32.roundArm s 0 0) := by
  refine armv67m_tracks.same (by decide) fun u s c hu => ?_
  rw [A128.Opt32.roundArm, A128.Opt32.exec_round, A128.Opt32.exec_round, hu .x0e (by decide), hu .x1e (by decide), hu .x2e (by decide),
    hu .x3e (by decide), hu .x4e (by decide), hu .x0o (by decide), hu .x1o (by decide), hu .x2o (by decide), hu .x3o (by decide),
    hu .x4o (by decide)]
  have z : ∀ x : BitVec 32, x ^^^ 0 = x := fun x => BitVec.xor_zero
  simp only [load, w0_lane, w1_lane, z]

end Model.Opt.Arm
