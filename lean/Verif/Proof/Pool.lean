import Verif.Proof.Threads
import Verif.Proof.Hash
/-!
# Any number of threads, one of which may use the global variables
-/

namespace C

/-- As `Ahead`; if `o` is true, the thread owns the global variables, otherwise it does not use them. -/
def AheadO (o : Bool) (e : Env) (a : α) (s1 : St) (n : Nat) (f : CM α) (s : St) : Prop :=
  (o = false → NoGlob f) ∧ ∃ c tr, run f e c = .ok a s1 tr ∧ Agree e c s ∧ (o = true → c.s0 = s.s0 ∧ c.s1 = s.s1) ∧ tr.length = n

theorem AheadO.step {o : Bool} {e : Env} {a : α} {s1 : St} {n : Nat} {f : CM α} {s : St} (h : AheadO o e a s1 n f s) :
    AheadO o e a s1 (n - 1) (step f e s).1 (step f e s).2 := by
  obtain ⟨hg, c, tr, hr, hA, hO, hn⟩ := h
  cases f with
  | ret x =>
    injection hr with h1 h2 h3
    subst h1; subst h2; subst h3
    exact ⟨hg, c, [], rfl, hA, hO, by rw [← hn]; rfl⟩
  | ub u => exact nomatch hr
  | load al w p k =>
    rw [run] at hr
    rw [C.step]
    by_cases h1 : canRead e p w = true
    · by_cases h2 : alignedOk e p al = true
      · rw [if_pos h1, if_pos h2] at hr ⊢
        obtain ⟨tr', ho, rfl⟩ := Out.cons_ok hr
        rw [hA.bytesAt h1] at ho
        refine ⟨fun h => ?_, c, tr', ho, hA, hO, by rw [← hn]; rfl⟩
        cases hg h with
        | load hk => exact hk _ (by simp [bytesAt])
      · rw [if_pos h1, if_neg h2] at hr; exact nomatch hr
    · rw [if_neg h1] at hr; exact nomatch hr
  | store al p bs k =>
    rw [run] at hr
    rw [C.step]
    by_cases h1 : canRead e p bs.length = true
    · by_cases h2 : alignedOk e p al = true
      · by_cases h3 : canWrite e p bs.length = true
        · rw [if_pos h1, if_pos h2, if_pos h3] at hr ⊢
          obtain ⟨tr', ho, rfl⟩ := Out.cons_ok hr
          refine ⟨fun h => ?_, _, tr', ho, hA.putBytes p bs, hO, by rw [← hn]; rfl⟩
          cases hg h with
          | store hk => exact hk
        · rw [if_pos h1, if_pos h2, if_neg h3] at hr; exact nomatch hr
      · rw [if_pos h1, if_neg h2] at hr; exact nomatch hr
    · rw [if_neg h1] at hr; exact nomatch hr
  | branch b k =>
    rw [run] at hr
    obtain ⟨tr', ho, rfl⟩ := Out.cons_ok hr
    refine ⟨fun h => ?_, c, tr', ho, hA, hO, by rw [← hn]; rfl⟩
    cases hg h with
    | branch hk => exact hk
  | getg g k =>
    cases o with
    | false => exact nomatch hg rfl
    | true =>
      rw [run] at hr
      obtain ⟨tr', ho, rfl⟩ := Out.cons_ok hr
      have hv : c.getg g = s.getg g := by
        cases g with
        | s0 => exact (hO rfl).1
        | s1 => exact (hO rfl).2
      rw [hv] at ho
      exact ⟨fun h => (nomatch h), c, tr', ho, hA, hO, by rw [← hn]; rfl⟩
  | setg g v k =>
    cases o with
    | false => exact nomatch hg rfl
    | true =>
      rw [run] at hr
      obtain ⟨tr', ho, rfl⟩ := Out.cons_ok hr
      refine ⟨fun h => (nomatch h), _, tr', ho, ?_, fun _ => ?_, by rw [← hn]; rfl⟩
      · cases g <;> exact hA
      · cases g with
        | s0 => exact ⟨rfl, (hO rfl).2⟩
        | s1 => exact ⟨(hO rfl).1, rfl⟩

theorem NoGlob.step {f : CM α} (h : NoGlob f) (e : Env) (s : St) :
    NoGlob (step f e s).1 ∧ (step f e s).2.s0 = s.s0 ∧ (step f e s).2.s1 = s.s1 := by
  cases h with
  | ret => exact ⟨.ret, rfl, rfl⟩
  | ub => exact ⟨.ub, rfl, rfl⟩
  | branch hk => exact ⟨hk, rfl, rfl⟩
  | load hk =>
    simp only [C.step]
    split
    · split
      · exact ⟨hk _ (by simp [bytesAt]), rfl, rfl⟩
      · exact ⟨.ub, rfl, rfl⟩
    · exact ⟨.ub, rfl, rfl⟩
  | store hk =>
    simp only [C.step]
    split
    · split
      · split
        · exact ⟨hk, rfl, rfl⟩
        · exact ⟨.ub, rfl, rfl⟩
      · exact ⟨.ub, rfl, rfl⟩
    · exact ⟨.ub, rfl, rfl⟩

theorem AheadO.other {o : Bool} {e e' : Env} {a : α} {s1 : St} {n : Nat} {f : CM α} {s : St} (h : AheadO o e a s1 n f s)
    (hS : ∀ b o, e'.wr b o = true → e.rd b o = false) (g : CM β) (hg : o = true → NoGlob g) :
    AheadO o e a s1 n f (C.step g e' s).2 := by
  obtain ⟨hf, c, tr, hr, hA, hO, hn⟩ := h
  refine ⟨hf, c, tr, hr, ?_, fun ho => ?_, hn⟩
  · intro b o hb
    rw [hA b o hb]
    by_cases hw : e'.wr b o = true
    · rw [hS b o hw] at hb; exact nomatch hb
    · rw [step_frame g e' s b o (by simpa using hw)]
  · have := ((hg ho).step e' s).2
    rw [this.1, this.2]
    exact hO ho

theorem AheadO.not_ub {o : Bool} {e : Env} {a : α} {s1 : St} {n : Nat} {f : CM α} {s : St} (h : AheadO o e a s1 n f s) (u : UB) :
    f ≠ .ub u := by
  rintro rfl
  obtain ⟨_, c, tr, hr, _⟩ := h
  exact nomatch hr

theorem AheadO.ret {o : Bool} {e : Env} {a x : α} {s1 : St} {n : Nat} {s : St} (h : AheadO o e a s1 n (.ret x) s) :
    x = a ∧ Agree e s1 s := by
  obtain ⟨_, c, tr, hr, hA, _⟩ := h
  injection hr with h1 h2 h3
  subst h1; subst h2
  exact ⟨rfl, hA⟩

theorem AheadO.done {o : Bool} {e : Env} {a : α} {s1 : St} {f : CM α} {s : St} (h : AheadO o e a s1 0 f s) : f = .ret a := by
  obtain ⟨hg, c, tr, hr, hA, hO, hn⟩ := h
  have hn : tr = [] := List.length_eq_zero_iff.1 hn
  subst hn
  cases f with
  | ret x =>
    injection hr with h1 h2 h3
    rw [h1]
  | ub u => exact nomatch hr
  | branch b k => rw [run] at hr; obtain ⟨_, _, h⟩ := Out.cons_ok hr; exact nomatch h
  | getg => rw [run] at hr; obtain ⟨_, _, h⟩ := Out.cons_ok hr; exact nomatch h
  | setg => rw [run] at hr; obtain ⟨_, _, h⟩ := Out.cons_ok hr; exact nomatch h
  | load al w p k =>
    rw [run] at hr
    split at hr
    · split at hr
      · obtain ⟨_, _, h⟩ := Out.cons_ok hr; exact nomatch h
      · exact nomatch hr
    · exact nomatch hr
  | store al p bs k =>
    rw [run] at hr
    split at hr
    · split at hr
      · split at hr
        · obtain ⟨_, _, h⟩ := Out.cons_ok hr; exact nomatch h
        · exact nomatch hr
      · exact nomatch hr
    · exact nomatch hr

/-- What a thread is about to use it may read, and what it is about to write it may write. -/
theorem AheadO.uses {o : Bool} {e : Env} {a : α} {s1 : St} {n : Nat} {f : CM α} {s : St} (h : AheadO o e a s1 n f s) (b i : Nat)
    (hu : NextUses f (.byte b i)) : e.rd b i = true := by
  obtain ⟨_, c, tr, hr, _⟩ := h
  cases f with
  | load al w p k =>
    rw [run] at hr
    split at hr
    · rename_i hc
      obtain ⟨rfl, h1, h2⟩ := hu
      rw [canRead, List.all_eq_true] at hc
      have := hc (i - p.off) (List.mem_range.2 (by omega))
      rwa [show p.off + (i - p.off) = i by omega] at this
    · exact nomatch hr
  | store al p bs k =>
    rw [run] at hr
    split at hr
    · rename_i hc
      obtain ⟨rfl, h1, h2⟩ := hu
      rw [canRead, List.all_eq_true] at hc
      have := hc (i - p.off) (List.mem_range.2 (by omega))
      rwa [show p.off + (i - p.off) = i by omega] at this
    · exact nomatch hr
  | _ => exact False.elim hu

theorem AheadO.writes {o : Bool} {e : Env} {a : α} {s1 : St} {n : Nat} {f : CM α} {s : St} (h : AheadO o e a s1 n f s) (b i : Nat)
    (hu : NextWrites f (.byte b i)) : e.wr b i = true := by
  obtain ⟨_, c, tr, hr, _⟩ := h
  cases f with
  | store al p bs k =>
    rw [run] at hr
    split at hr
    · split at hr
      · split at hr
        · rename_i hc
          obtain ⟨rfl, h1, h2⟩ := hu
          rw [canWrite, List.all_eq_true] at hc
          have := hc (i - p.off) (List.mem_range.2 (by omega))
          rwa [show p.off + (i - p.off) = i by omega] at this
        · exact nomatch hr
      · exact nomatch hr
    · exact nomatch hr
  | _ => exact False.elim hu

theorem NoGlob.not_uses {f : CM α} (h : NoGlob f) (g : Glob) : ¬ NextUses f (.glob g) := by
  cases h <;> exact id

theorem NextWrites.uses {f : CM α} {x : Place} (h : NextWrites f x) : NextUses f x := by
  cases f <;> cases x <;> first | exact h | exact False.elim h

section pool
variable {ι α : Type} [DecidableEq ι] {es : ι → Env} {own : ι → Bool} {a : ι → α} {s1 : ι → St}

/-- All threads together: thread `i` ends like its run alone, which returns `a i` in state `s1 i`, after `n i` more steps. -/
def PoolAhead (es : ι → Env) (own : ι → Bool) (a : ι → α) (s1 : ι → St) (n : ι → Nat) (T : Pool ι α) : Prop :=
  ∀ i, AheadO (own i) (es i) (a i) (s1 i) (n i) (T.t i) T.s

theorem schedule_ahead (hS : ∀ i j, i ≠ j → Separate (es i) (es j)) (hO : ∀ i j, own i = true → own j = true → i = j) (l : List ι)
    {n : ι → Nat} {T : Pool ι α} (h : PoolAhead es own a s1 n T) :
    PoolAhead es own a s1 (fun i => n i - l.count i) (schedule es l T) := by
  induction l generalizing T n with
  | nil => exact h
  | cons i l ih =>
    have := ih (n := fun j => if j = i then n j - 1 else n j)
      (T := ⟨fun j => if j = i then (step (T.t i) (es i) T.s).1 else T.t j, (step (T.t i) (es i) T.s).2⟩) (by
        intro j
        by_cases hj : j = i
        · subst hj
          simp only [if_true]
          exact (h j).step
        · simp only [if_neg hj]
          refine (h j).other (hS i j (Ne.symm hj)).left _ fun ho => (h i).1 ?_
          cases hi : own i with
          | false => rfl
          | true => exact absurd (hO j i ho hi) hj)
    intro j
    have h2 := this j
    simp only at h2 ⊢
    by_cases hj : j = i
    · subst hj
      rw [if_pos rfl] at h2
      rw [show n j - (j :: l).count j = n j - 1 - l.count j by simp; omega]
      exact h2
    · rw [if_neg hj] at h2
      rw [show (i :: l).count j = l.count j by rw [List.count_cons]; simp [Ne.symm hj]]
      exact h2

theorem schedule_frame (l : List ι) (T : Pool ι α) (b o : Nat) (h : ∀ i, (es i).wr b o = false) :
    (schedule es l T).s.mem b o = T.s.mem b o := by
  induction l generalizing T with
  | nil => rfl
  | cons i l ih => rw [schedule, ih]; exact step_frame _ _ _ _ _ (h i)

theorem PoolAhead.no_race (hS : ∀ i j, i ≠ j → Separate (es i) (es j)) (hO : ∀ i j, own i = true → own j = true → i = j)
    {n : ι → Nat} {T : Pool ι α} (h : PoolAhead es own a s1 n T) : ¬ DataRace T := by
  rintro ⟨i, j, x, hij, hw, hu⟩
  cases x with
  | byte b o =>
    have h1 := (h i).writes b o hw
    have h2 := (h j).uses b o hu
    rw [(hS i j hij).left b o h1] at h2
    exact nomatch h2
  | glob g =>
    have h1 : own i = true := by
      cases ho : own i with
      | true => rfl
      | false => exact absurd hw.uses (((h i).1 ho).not_uses g)
    have h2 : own j = true := by
      cases ho : own j with
      | true => rfl
      | false => exact absurd hu (((h j).1 ho).not_uses g)
    exact hij (hO i j h1 h2)

end pool

end C

namespace Model.Opt
open C

variable {st gl : Bool} {D : Prims}

theorem sim_cryptoHash (P : PrimsShape D) (out inp : Ptr) (inlen : Nat) :
    Sim true gl Eq (cryptoHash D out inp inlen) (cryptoHash D out inp inlen) := by
  unfold cryptoHash
  refine (P.pH _ _).free.bind fun _ _ _ => (sim_absorbLanes P _ _ _ _).bind fun _ _ _ => ?_
  refine (sim_forN (R := Any) ?_ _ _ trivial).bind fun _ _ _ => .pure rfl
  intro i x y _
  unfold squeezeStep
  exact (sim_store64 _ _ _).bind fun _ _ _ => sim_if (fun _ => (P.pH _ _).free) fun _ => .pure trivial

end Model.Opt

namespace Model
open C

theorem Target.hashShape {t : Target} {D : Opt.Prims} (h : t.hashPrims = some D) : Opt.PrimsShape D := by
  cases t
  case a128aOpt64 => exact Option.some.inj h ▸ Opt.unrolled_shape _ _ _ _ _ _ _
  case a128aOpt32 => exact Option.some.inj h ▸ Opt.unrolled_shape _ _ _ _ _ _ _
  case a128aOpt32Compact => exact Option.some.inj h ▸ Opt.switch_shape _ _ _ _ _ _ _
  case a128aOpt32Tiny => exact Option.some.inj h ▸ Opt.tiny_shape _ _ _ _
  case a128aOpt32Stp => exact Option.some.inj h ▸ (Opt.switch7_shape _ _ _ _ _ _ _).prims
  case a128aOpt8 => exact Option.some.inj h ▸ Opt.switch_shape _ _ _ _ _ _ _
  case a128aOpt8Tiny => exact Option.some.inj h ▸ Opt.tiny_shape _ _ _ _
  case a128aBi8 => exact Option.some.inj h ▸ Opt.switch_shape _ _ _ _ _ _ _
  case a128aBi32 => exact Option.some.inj h ▸ Opt.unrolled_shape _ _ _ _ _ _ _
  case a128aBi32Compact => exact Option.some.inj h ▸ Opt.switch_shape _ _ _ _ _ _ _
  case a128aBi32Stp => exact Option.some.inj h ▸ (Opt.switch7_shape _ _ _ _ _ _ _).prims
  case a128aBi32Armv6 => exact Option.some.inj h ▸ Opt.unrolled_shape _ _ _ _ _ _ _
  case a128aBi32Armv6m => exact Option.some.inj h ▸ Opt.unrolled_shape _ _ _ _ _ _ _
  case a128aBi32Armv6mCompact => exact Option.some.inj h ▸ Opt.switch_shape _ _ _ _ _ _ _
  case a128aBi32Armv6mStp => exact Option.some.inj h ▸ (Opt.switch7_shape _ _ _ _ _ _ _).prims
  case a128aBi32Armv7m => exact Option.some.inj h ▸ Opt.unrolled_shape _ _ _ _ _ _ _
  all_goals exact nomatch h

theorem Target.sim_hash {t : Target} {f : Ptr → Ptr → Nat → CM Int} (h : t.hash = some f) (out inp : Ptr) (inlen : Nat) {gl : Bool} :
    Sim true gl Eq (f out inp inlen) (f out inp inlen) := by
  unfold Target.hash at h
  rw [Option.map_eq_some_iff] at h
  obtain ⟨D, hD, rfl⟩ := h
  exact Opt.sim_cryptoHash (Target.hashShape hD) _ _ _

end Model
