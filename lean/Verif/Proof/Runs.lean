import Verif.C.Mem
/-!
# Rules for reasoning about runs of `CM` programs
-/

namespace C

theorem Runs.det {f : CM α} {e s a s' b s''} (h : Runs f e s a s') (h' : Runs f e s b s'') : a = b ∧ s' = s'' := by
  obtain ⟨tr, h⟩ := h
  obtain ⟨tr', h'⟩ := h'
  rw [h] at h'
  cases h'
  exact ⟨rfl, rfl⟩

theorem Runs.not_ub {f : CM α} {e s a s'} (h : Runs f e s a s') : ¬ IsUB f e s := by
  rintro ⟨u, h'⟩
  obtain ⟨tr, h⟩ := h
  rw [h] at h'
  cases h'

theorem runs_pure (a : α) (e : Env) (s : St) : Runs (pure a : CM α) e s a s := ⟨[], rfl⟩

/-- Result of sequencing, given the result of the first part. -/
def Out.andThen (o : Out α) (g : α → St → Out β) : Out β :=
  match o with
  | .ub u => .ub u
  | .ok a s tr =>
    match g a s with
    | .ub u => .ub u
    | .ok b s' tr' => .ok b s' (tr ++ tr')

theorem Out.andThen_cons (ev : Ev) (o : Out α) (g : α → St → Out β) : (o.cons ev).andThen g = (o.andThen g).cons ev := by
  cases o with
  | ub u => rfl
  | ok a s tr =>
    simp only [Out.cons, Out.andThen]
    cases g a s <;> rfl

/-- Execution of a sequence is execution of the parts. -/
theorem run_bind (f : CM α) (g : α → CM β) (e : Env) (s : St) :
    run (f >>= g) e s = (run f e s).andThen fun a s' => run (g a) e s' := by
  show run (CM.bind f g) e s = _
  induction f generalizing s with
  | ret a => simp only [CM.bind, run, Out.andThen]; cases run (g a) e s <;> rfl
  | ub u => rfl
  | load al w p k ih =>
    simp only [CM.bind, run]
    split
    · split
      · rw [ih, Out.andThen_cons]
      · rfl
    · rfl
  | store al p bs k ih =>
    simp only [CM.bind, run]
    split
    · split
      · split
        · rw [ih, Out.andThen_cons]
        · rfl
      · rfl
    · rfl
  | branch b k ih => simp only [CM.bind, run]; rw [ih, Out.andThen_cons]
  | getg x k ih => simp only [CM.bind, run]; rw [ih, Out.andThen_cons]
  | setg x v k ih => simp only [CM.bind, run]; rw [ih, Out.andThen_cons]

theorem runs_bind {f : CM α} {g : α → CM β} {e : Env} {s s' s'' : St} {a : α} {b : β}
    (hf : Runs f e s a s') (hg : Runs (g a) e s' b s'') : Runs (f >>= g) e s b s'' := by
  obtain ⟨t, hf⟩ := hf
  obtain ⟨t', hg⟩ := hg
  exact ⟨t ++ t', by rw [run_bind, hf, Out.andThen, hg]⟩

theorem runs_bind_inv {f : CM α} {g : α → CM β} {e : Env} {s s'' : St} {b : β} (h : Runs (f >>= g) e s b s'') :
    ∃ a s', Runs f e s a s' ∧ Runs (g a) e s' b s'' := by
  obtain ⟨t, h⟩ := h
  rw [run_bind] at h
  cases hf : run f e s with
  | ub u => rw [hf] at h; exact nomatch h
  | ok a s' tr =>
    rw [hf] at h
    simp only [Out.andThen] at h
    cases hg : run (g a) e s' with
    | ub u => rw [hg] at h; exact nomatch h
    | ok b' s2 tr' =>
      rw [hg] at h
      injection h with h1 h2 h3
      subst h1; subst h2
      exact ⟨a, s', ⟨tr, hf⟩, ⟨tr', hg⟩⟩

theorem isUB_bind_left {f : CM α} {g : α → CM β} {e : Env} {s : St} (h : IsUB f e s) : IsUB (f >>= g) e s := by
  obtain ⟨u, h⟩ := h
  exact ⟨u, by rw [run_bind, h]; rfl⟩

theorem isUB_bind_right {f : CM α} {g : α → CM β} {e : Env} {s s' : St} {a : α} (hf : Runs f e s a s')
    (h : IsUB (g a) e s') : IsUB (f >>= g) e s := by
  obtain ⟨t, hf⟩ := hf
  obtain ⟨u, h⟩ := h
  exact ⟨u, by rw [run_bind, hf, Out.andThen, h]⟩

theorem runs_assert {b : Bool} (h : b = true) (e : Env) (s : St) : Runs (assert b) e s () s :=
  ⟨[], by simp [assert, h, run]⟩

theorem runs_branch (b : Bool) (e : Env) (s : St) : Runs (branch b) e s b s := ⟨[.br b], rfl⟩

theorem runs_if_true {p : Prop} [Decidable p] (hp : p) {f g : CM α} {e : Env} {s s' : St} {a : α} (h : Runs f e s a s') :
    Runs (branch (decide p) >>= fun b => if b then f else g) e s a s' := by
  refine runs_bind (runs_branch _ _ _) ?_
  simpa [hp] using h

theorem runs_if_false {p : Prop} [Decidable p] (hp : ¬ p) {f g : CM α} {e : Env} {s s' : St} {a : α} (h : Runs g e s a s') :
    Runs (branch (decide p) >>= fun b => if b then f else g) e s a s' := by
  refine runs_bind (runs_branch _ _ _) ?_
  simpa [hp] using h

theorem runs_ifThen_true {p : Prop} [Decidable p] (hp : p) {f : CM Unit} {e : Env} {s s' : St} (h : Runs f e s () s') :
    Runs (ifThen (decide p) f) e s () s' := runs_if_true hp h

theorem runs_ifThen_false {p : Prop} [Decidable p] (hp : ¬ p) {f : CM Unit} {e : Env} {s : St} :
    Runs (ifThen (decide p) f) e s () s := runs_if_false hp (runs_pure _ _ _)

/-- Replace the result by an equal one. -/
theorem runs_eq {f : CM α} {e : Env} {s s' : St} {a a' : α} (h : Runs f e s a' s') (ha : a' = a) : Runs f e s a s' := ha ▸ h

theorem runs_eq2 {f : CM α} {e : Env} {s s' t' : St} {a a' : α} (h : Runs f e s a' s') (ha : a' = a) (hs : s' = t') :
    Runs f e s a t' := hs ▸ ha ▸ h

/-- Counted loop: `sv j`, `ss j` are the local variables and the memory before iteration `j`. -/
theorem runs_forN {σ : Type} {f : Nat → σ → CM σ} {e : Env} (n : Nat) : ∀ (i : Nat) (sv : Nat → σ) (ss : Nat → St),
    (∀ j, j < n → Runs (f (i + j) (sv j)) e (ss j) (sv (j + 1)) (ss (j + 1))) →
    Runs (forN n i f (sv 0)) e (ss 0) (sv n) (ss n) := by
  induction n with
  | zero => intro i sv ss _; exact runs_bind (runs_branch _ _ _) (runs_pure _ _ _)
  | succ n ih =>
    intro i sv ss h
    refine runs_bind (runs_branch _ _ _) (runs_bind (h 0 (Nat.succ_pos _)) ?_)
    refine ih (i + 1) (fun j => sv (j + 1)) (fun j => ss (j + 1)) fun j hj => ?_
    have := h (j + 1) (by omega)
    rwa [show i + (j + 1) = i + 1 + j by omega] at this

/-- Counted loop that leaves memory unchanged. -/
theorem runs_forN_pure {σ : Type} {f : Nat → σ → CM σ} {e : Env} {s : St} (n i : Nat) (sv : Nat → σ)
    (h : ∀ j, j < n → Runs (f (i + j) (sv j)) e s (sv (j + 1)) s) :
    Runs (forN n i f (sv 0)) e s (sv n) s :=
  runs_forN n i sv (fun _ => s) h

/-- Counted loop computing a fold, memory unchanged. -/
theorem runs_forN_fold {σ : Type} {f : Nat → σ → CM σ} {g : Nat → σ → σ} {e : Env} {s : St} (n i : Nat) (x : σ)
    (h : ∀ j, j < n → ∀ x, Runs (f (i + j) x) e s (g j x) s) :
    Runs (forN n i f x) e s ((List.range n).foldl (fun x j => g j x) x) s := by
  have := runs_forN_pure (f := f) (e := e) (s := s) n i (fun j => (List.range j).foldl (fun x j => g j x) x) (by
    intro j hj
    simp only [List.range_succ, List.foldl_append, List.foldl_cons, List.foldl_nil]
    exact h j hj _)
  simpa using this

/-- `while (len >= r) ...; len -= r` runs `len / r` times. -/
theorem whileGe_eq {σ : Type} {r : Nat} (hr : 0 < r) (len i : Nat) (body : Nat → σ → CM σ) (s : σ) :
    whileGe r hr len i body s = forN (len / r) i body s := by
  induction len using Nat.strongRecOn generalizing i s with
  | ind len ih =>
    rw [whileGe]
    by_cases h : len ≥ r
    · rw [if_pos h]
      have : len / r = (len - r) / r + 1 := by
        conv => lhs; rw [show len = (len - r) + r by omega]
        rw [Nat.add_div_right _ hr]
      rw [this, forN]
      congr 1
      funext _
      congr 1
      funext s'
      exact ih (len - r) (by omega) (i + 1) s'
    · rw [if_neg h, Nat.div_eq_of_lt (by omega), forN]

theorem bind_assoc' {α β γ : Type} (f : CM α) (g : α → CM β) (h : β → CM γ) : (f >>= g) >>= h = f >>= fun a => g a >>= h := by
  show CM.bind (CM.bind f g) h = CM.bind f fun a => CM.bind (g a) h
  induction f with
  | ret a => rfl
  | ub u => rfl
  | load al w p k ih => simp only [CM.bind, ih]
  | store al p bs k ih => simp only [CM.bind, ih]
  | branch b k ih => simp only [CM.bind, ih]
  | getg x k ih => simp only [CM.bind, ih]
  | setg x v k ih => simp only [CM.bind, ih]

/-- Number of iterations of a `whileRem` loop before the last one. -/
def remBlocks (r len : Nat) : Nat := (len - 1) / r

/-- A `whileRem` loop is a counted loop followed by the last iteration. -/
theorem whileRem_eq {σ : Type} {r : Nat} (hr : 0 < r) (len i : Nat) (full last : Nat → σ → CM σ)
    (part : Nat → Nat → σ → CM σ) (s : σ) :
    whileRem r hr len i full last part s =
      forN (remBlocks r len) i full s >>= fun s =>
        branch (len - r * remBlocks r len = r) >>= fun b =>
          if b then last (i + remBlocks r len) s else part (i + remBlocks r len) (len - r * remBlocks r len) s := by
  induction len using Nat.strongRecOn generalizing i s with
  | ind len ih =>
    rw [whileRem]
    by_cases h : len > r
    · rw [if_pos h]
      have hb : remBlocks r len = remBlocks r (len - r) + 1 := by
        unfold remBlocks
        rw [show len - 1 = (len - r - 1) + r by omega, Nat.add_div_right _ hr]
      have h2 : len - r * (remBlocks r (len - r) + 1) = len - r - r * remBlocks r (len - r) := by
        rw [Nat.mul_add, Nat.mul_one]; omega
      rw [hb, forN, h2]
      rw [bind_assoc']
      congr 1
      funext _
      rw [bind_assoc']
      congr 1
      funext s'
      rw [ih (len - r) (by omega) (i + 1) s']
      simp only [show i + (remBlocks r (len - r) + 1) = i + 1 + remBlocks r (len - r) by omega]
    · rw [if_neg h]
      have hb : remBlocks r len = 0 := by
        unfold remBlocks
        exact Nat.div_eq_of_lt (by omega)
      rw [hb, forN, bind_assoc']
      rfl

theorem remBlocks_le {r : Nat} (hr : 0 < r) (len : Nat) : r * remBlocks r len ≤ len ∧ len - r * remBlocks r len ≤ r := by
  unfold remBlocks
  have h1 := Nat.div_add_mod (len - 1) r
  have h2 := Nat.mod_lt (len - 1) hr
  omega

/-- For a length that is not a multiple of the block length, these are all full blocks. -/
theorem remBlocks_part {r : Nat} (hr : 0 < r) {len : Nat} (h : len - r * remBlocks r len ≠ r) :
    remBlocks r len = len / r ∧ len - r * remBlocks r len = len % r := by
  have h1 := remBlocks_le hr len
  have h2 : len = r * remBlocks r len + (len - r * remBlocks r len) := by omega
  have h3 : len - r * remBlocks r len < r := by omega
  generalize remBlocks r len = q at *
  generalize hm : len - r * q = m at *
  subst h2
  rw [Nat.mul_add_div hr, Nat.div_eq_of_lt h3, Nat.mul_add_mod, Nat.mod_eq_of_lt h3]
  exact ⟨rfl, rfl⟩

/-- Otherwise the last block is full, too. -/
theorem remBlocks_last {r : Nat} (hr : 0 < r) {len : Nat} (h : len - r * remBlocks r len = r) :
    len / r = remBlocks r len + 1 ∧ len % r = 0 := by
  have h1 := remBlocks_le hr len
  have h2 : len = r * (remBlocks r len + 1) := by rw [Nat.mul_add]; omega
  generalize remBlocks r len = q at *
  subst h2
  rw [Nat.mul_div_cancel_left _ hr, Nat.mul_mod_right]
  exact ⟨rfl, rfl⟩

end C
