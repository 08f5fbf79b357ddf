import Verif.C.AsmFlags
/-!
# The flags after inline assembly
-/

namespace C.Arm
variable {κ ρ : Type}

/-- Is it `movs`? -/
def Ins.isMov : Ins ρ → Bool
  | .mov _ _ => true
  | _ => false

theorem Ins.place_isMov {l : κ → Loc ρ} {i : Ins κ} {j : Ins ρ} (h : i.place l = some j) : j.isMov = i.isMov := by
  cases i <;> simp only [Ins.place, bind, pure, Option.bind_eq_some_iff, Option.some.injEq] at h
  case mov => obtain ⟨_, _, _, _, h⟩ := h; subst h; rfl
  case mvn => obtain ⟨_, _, _, _, h⟩ := h; subst h; rfl
  all_goals obtain ⟨_, _, _, _, _, _, h⟩ := h; subst h; rfl

theorem execFlags_keep [DecidableEq ρ] (l : κ → Loc ρ) : ∀ (c : List (Ins κ)), (∀ i ∈ c, i.isMov = false) →
    ∀ (p : List (Ins ρ)) (f : ρ → BitVec 32) (fl : Flags), assemble l c = some p → execFlags false p f fl = fl
  | [], _, p, f, fl, h => by simp only [assemble, Option.some.injEq] at h; subst h; rfl
  | i :: c, hc, p, f, fl, h => by
    simp only [assemble, bind, pure, Option.bind_eq_some_iff, Option.some.injEq] at h
    obtain ⟨j, hj, q, hq, rfl⟩ := h
    have hm : j.isMov = false := by rw [Ins.place_isMov hj]; exact hc i (List.mem_cons_self ..)
    have hf : flagStep false (step f j) fl j = fl := by cases j <;> first | rfl | exact Bool.noConfusion hm
    rw [execFlags, hf]
    exact execFlags_keep l c (fun i hi => hc i (List.mem_cons_of_mem _ hi)) q _ fl hq

theorem execFlags_append [DecidableEq ρ] (t : Bool) (p q : List (Ins ρ)) (f : ρ → BitVec 32) (fl : Flags) :
    execFlags t (p ++ q) f fl = execFlags t q (exec p f) (execFlags t p f fl) := by
  induction p generalizing f fl with
  | nil => rfl
  | cons i p ih => exact ih _ _

theorem assemble_append {l : κ → Loc ρ} : ∀ {c d : List (Ins κ)} {p : List (Ins ρ)}, assemble l (c ++ d) = some p →
    ∃ q r, assemble l c = some q ∧ assemble l d = some r ∧ p = q ++ r
  | [], d, p, h => ⟨[], p, rfl, h, rfl⟩
  | i :: c, d, p, h => by
    simp only [List.cons_append, assemble, bind, pure, Option.bind_eq_some_iff, Option.some.injEq] at h ⊢
    obtain ⟨j, hj, q, hq, rfl⟩ := h
    obtain ⟨q', r, h1, h2, rfl⟩ := assemble_append hq
    exact ⟨j :: q', r, ⟨j, hj, q', h1, rfl⟩, h2, rfl⟩

/-- After a final `movs d, a` the flags describe `d`. -/
theorem execFlags_last [DecidableEq ρ] {l : κ → Loc ρ} {c : List (Ins κ)} {d a : κ} {r : ρ} (hd : l d = .reg r) {p : List (Ins ρ)}
    (h : assemble l (c ++ [.mov d (.reg a)]) = some p) (t : Bool) (f : ρ → BitVec 32) (fl : Flags) :
    execFlags t p f fl = ⟨(exec p f r).msb, exec p f r == 0⟩ := by
  obtain ⟨q, s, _, hs, rfl⟩ := assemble_append h
  have hs : s = [.mov r (match l a with | .reg r => .reg r | .imm v => .imm v)] := by
    simp only [assemble, Ins.place, Opd.place, hd, Loc.toReg, bind, pure, Option.bind_some, Option.some.injEq] at hs
    exact hs.symm
  subst hs
  rw [execFlags_append, exec_append]
  rfl

end C.Arm
