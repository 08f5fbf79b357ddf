import Verif.C.Valid
import Verif.Proof.Mem
/-!
# Footprints

A run that succeeds with access to some memory is the same run when more memory is accessible, and all its accesses are to
the memory that was made accessible.
-/

namespace C

/-- `e'` allows everything `e` allows. -/
structure EnvLe (e e' : Env) : Prop where
  rd : ∀ b o, e.rd b o = true → e'.rd b o = true
  wr : ∀ b o, e.wr b o = true → e'.wr b o = true
  base : e'.base = e.base
  strict : e'.strict = e.strict

theorem EnvLe.canRead {e e' : Env} (h : EnvLe e e') {p : Ptr} {w : Nat} (hc : C.canRead e p w = true) :
    C.canRead e' p w = true := by
  rw [C.canRead, List.all_eq_true] at hc ⊢
  exact fun x hx => h.rd _ _ (hc x hx)

theorem EnvLe.canWrite {e e' : Env} (h : EnvLe e e') {p : Ptr} {w : Nat} (hc : C.canWrite e p w = true) :
    C.canWrite e' p w = true := by
  rw [C.canWrite, List.all_eq_true] at hc ⊢
  exact fun x hx => h.wr _ _ (hc x hx)

theorem EnvLe.aligned {e e' : Env} (h : EnvLe e e') (p : Ptr) (al : Nat) : alignedOk e' p al = alignedOk e p al := by
  rw [alignedOk, alignedOk, h.base, h.strict]

theorem Out.cons_ok {ev : Ev} {o : Out α} {a : α} {s : St} {tr : List Ev} (h : o.cons ev = .ok a s tr) :
    ∃ tr', o = .ok a s tr' ∧ tr = ev :: tr' := by
  cases o with
  | ub u => exact nomatch h
  | ok a' s' tr' =>
    injection h with h1 h2 h3
    subst h1; subst h2; subst h3
    exact ⟨tr', rfl, rfl⟩

/-- More accessible memory does not change a successful run. -/
theorem run_mono {e e' : Env} (h : EnvLe e e') (f : CM α) {s : St} {a : α} {s' : St} {tr : List Ev}
    (hr : run f e s = .ok a s' tr) : run f e' s = .ok a s' tr := by
  induction f generalizing s tr with
  | ret x => exact hr
  | ub u => exact nomatch hr
  | load al w p k ih =>
    rw [run] at hr ⊢
    by_cases h1 : canRead e p w = true
    · by_cases h2 : alignedOk e p al = true
      · rw [if_pos h1, if_pos h2] at hr
        obtain ⟨tr', ho, rfl⟩ := Out.cons_ok hr
        rw [if_pos (h.canRead h1), if_pos (by rw [h.aligned]; exact h2), ih _ ho]; rfl
      · rw [if_pos h1, if_neg h2] at hr; exact nomatch hr
    · rw [if_neg h1] at hr; exact nomatch hr
  | store al p bs k ih =>
    rw [run] at hr ⊢
    by_cases h1 : canRead e p bs.length = true
    · by_cases h2 : alignedOk e p al = true
      · by_cases h3 : canWrite e p bs.length = true
        · rw [if_pos h1, if_pos h2, if_pos h3] at hr
          obtain ⟨tr', ho, rfl⟩ := Out.cons_ok hr
          rw [if_pos (h.canRead h1), if_pos (by rw [h.aligned]; exact h2), if_pos (h.canWrite h3), ih ho]; rfl
        · rw [if_pos h1, if_pos h2, if_neg h3] at hr; exact nomatch hr
      · rw [if_pos h1, if_neg h2] at hr; exact nomatch hr
    · rw [if_neg h1] at hr; exact nomatch hr
  | branch b k ih =>
    rw [run] at hr ⊢
    obtain ⟨tr', ho, rfl⟩ := Out.cons_ok hr
    rw [ih ho]; rfl
  | getg g k ih =>
    rw [run] at hr ⊢
    obtain ⟨tr', ho, rfl⟩ := Out.cons_ok hr
    rw [ih _ ho]; rfl
  | setg g v k ih =>
    rw [run] at hr ⊢
    obtain ⟨tr', ho, rfl⟩ := Out.cons_ok hr
    rw [ih ho]; rfl

/-- The access is to memory allowed by `e`. -/
def EvIn (e : Env) : Ev → Prop
  | .rd p w => ∀ i, i < w → e.rd p.blk (p.off + i) = true
  | .wr p w => ∀ i, i < w → e.rd p.blk (p.off + i) = true ∧ e.wr p.blk (p.off + i) = true
  | _ => True

/-- Every access of a successful run is to memory allowed by the environment. -/
theorem run_evIn {e : Env} (f : CM α) {s : St} {a : α} {s' : St} {tr : List Ev} (hr : run f e s = .ok a s' tr) :
    ∀ ev ∈ tr, EvIn e ev := by
  have all : ∀ {w : Nat} {g : Nat → Bool}, ((List.range w).all g = true) → ∀ i, i < w → g i = true := by
    intro w g h i hi
    rw [List.all_eq_true] at h
    exact h i (List.mem_range.2 hi)
  induction f generalizing s tr with
  | ret x => injection hr with _ _ h; subst h; simp
  | ub u => exact nomatch hr
  | load al w p k ih =>
    rw [run] at hr
    by_cases h1 : canRead e p w = true
    · by_cases h2 : alignedOk e p al = true
      · rw [if_pos h1, if_pos h2] at hr
        obtain ⟨tr', ho, rfl⟩ := Out.cons_ok hr
        intro ev hev
        rcases List.mem_cons.1 hev with rfl | hev
        · exact all h1
        · exact ih _ ho ev hev
      · rw [if_pos h1, if_neg h2] at hr; exact nomatch hr
    · rw [if_neg h1] at hr; exact nomatch hr
  | store al p bs k ih =>
    rw [run] at hr
    by_cases h1 : canRead e p bs.length = true
    · by_cases h2 : alignedOk e p al = true
      · by_cases h3 : canWrite e p bs.length = true
        · rw [if_pos h1, if_pos h2, if_pos h3] at hr
          obtain ⟨tr', ho, rfl⟩ := Out.cons_ok hr
          intro ev hev
          rcases List.mem_cons.1 hev with rfl | hev
          · exact fun i hi => ⟨all h1 i hi, all h3 i hi⟩
          · exact ih ho ev hev
        · rw [if_pos h1, if_pos h2, if_neg h3] at hr; exact nomatch hr
      · rw [if_pos h1, if_neg h2] at hr; exact nomatch hr
    · rw [if_neg h1] at hr; exact nomatch hr
  | branch b k ih =>
    rw [run] at hr
    obtain ⟨tr', ho, rfl⟩ := Out.cons_ok hr
    intro ev hev
    rcases List.mem_cons.1 hev with rfl | hev
    · trivial
    · exact ih ho ev hev
  | getg g k ih =>
    rw [run] at hr
    obtain ⟨tr', ho, rfl⟩ := Out.cons_ok hr
    intro ev hev
    rcases List.mem_cons.1 hev with rfl | hev
    · trivial
    · exact ih _ ho ev hev
  | setg g v k ih =>
    rw [run] at hr
    obtain ⟨tr', ho, rfl⟩ := Out.cons_ok hr
    intro ev hev
    rcases List.mem_cons.1 hev with rfl | hev
    · trivial
    · exact ih ho ev hev

end C
