import Verif.Proof.Once
/-!
# Code that makes a bounded number of steps

`Steps f n Q`: whatever `f` reads, it makes at most `n` steps (accesses to memory or global variables and branches), and its result
satisfies `Q`.
-/

namespace C

variable {α β : Type}

/-- See above. -/
def Steps : CM α → Nat → (α → Prop) → Prop
  | .ret a, _, Q => Q a
  | .ub _, _, _ => True
  | .load _ w _ k, n, Q => 0 < n ∧ ∀ bs, bs.length = w → Steps (k bs) (n - 1) Q
  | .store _ _ _ k, n, Q => 0 < n ∧ Steps k (n - 1) Q
  | .branch _ k, n, Q => 0 < n ∧ Steps k (n - 1) Q
  | .getg _ k, n, Q => 0 < n ∧ ∀ v, Steps (k v) (n - 1) Q
  | .setg _ _ k, n, Q => 0 < n ∧ Steps k (n - 1) Q

/-- Nothing is said about the result. -/
abbrev Triv {α : Type} : α → Prop := fun _ => True

theorem Steps.mono {f : CM α} {n m : Nat} {Q R : α → Prop} (h : Steps f n Q) (hn : n ≤ m) (hQ : ∀ a, Q a → R a) : Steps f m R := by
  induction f generalizing n m with
  | ret a => exact hQ a h
  | ub u => trivial
  | load al w p k ih => exact ⟨Nat.lt_of_lt_of_le h.1 hn, fun bs hb => ih bs (h.2 bs hb) (Nat.sub_le_sub_right hn 1)⟩
  | store al p bs k ih => exact ⟨Nat.lt_of_lt_of_le h.1 hn, ih h.2 (Nat.sub_le_sub_right hn 1)⟩
  | branch b k ih => exact ⟨Nat.lt_of_lt_of_le h.1 hn, ih h.2 (Nat.sub_le_sub_right hn 1)⟩
  | getg g k ih => exact ⟨Nat.lt_of_lt_of_le h.1 hn, fun v => ih v (h.2 v) (Nat.sub_le_sub_right hn 1)⟩
  | setg g v k ih => exact ⟨Nat.lt_of_lt_of_le h.1 hn, ih h.2 (Nat.sub_le_sub_right hn 1)⟩

theorem Steps.le {f : CM α} {n m : Nat} {Q : α → Prop} (h : Steps f n Q) (hn : n ≤ m) : Steps f m Q := h.mono hn fun _ h => h

theorem Steps.triv {f : CM α} {n : Nat} {Q : α → Prop} (h : Steps f n Q) : Steps f n Triv := h.mono (Nat.le_refl _) fun _ _ => trivial

theorem Steps.bindQ {f : CM α} {g : α → CM β} {n m : Nat} {Q : α → Prop} {R : β → Prop} (h : Steps f n Q)
    (hg : ∀ a, Q a → Steps (g a) m R) : Steps (f >>= g) (n + m) R := by
  show Steps (CM.bind f g) _ R
  induction f generalizing n with
  | ret a => exact (hg a h).le (Nat.le_add_left ..)
  | ub u => trivial
  | load al w p k ih =>
    exact ⟨Nat.lt_of_lt_of_le h.1 (Nat.le_add_right ..), fun bs hb => (ih bs (h.2 bs hb)).le (by have := h.1; omega)⟩
  | store al p bs k ih => exact ⟨Nat.lt_of_lt_of_le h.1 (Nat.le_add_right ..), (ih h.2).le (by have := h.1; omega)⟩
  | branch b k ih => exact ⟨Nat.lt_of_lt_of_le h.1 (Nat.le_add_right ..), (ih h.2).le (by have := h.1; omega)⟩
  | getg g k ih => exact ⟨Nat.lt_of_lt_of_le h.1 (Nat.le_add_right ..), fun v => (ih v (h.2 v)).le (by have := h.1; omega)⟩
  | setg g v k ih => exact ⟨Nat.lt_of_lt_of_le h.1 (Nat.le_add_right ..), (ih h.2).le (by have := h.1; omega)⟩

theorem Steps.bind {f : CM α} {g : α → CM β} {n m : Nat} {R : β → Prop} (h : Steps f n Triv)
    (hg : ∀ a, Steps (g a) m R) : Steps (f >>= g) (n + m) R := h.bindQ fun a _ => hg a

theorem Steps.map {f : CM α} {g : α → β} {n : Nat} (h : Steps f n Triv) : Steps (f >>= fun a => Pure.pure (g a)) n Triv :=
  h.bind (m := 0) fun _ => trivial

theorem Steps.pure (a : α) : Steps (Pure.pure a : CM α) 0 Triv := trivial

theorem Steps.pureQ {a : α} {Q : α → Prop} (h : Q a) : Steps (Pure.pure a : CM α) 0 Q := h

/-- The number of events is bounded. -/
theorem Steps.trace {f : CM α} {n : Nat} {Q : α → Prop} (h : Steps f n Q) {e : Env} {s s' : St} {r : α} {tr : List Ev}
    (hr : run f e s = .ok r s' tr) : tr.length ≤ n := by
  induction f generalizing n s tr with
  | ret a => cases hr; exact Nat.zero_le _
  | ub u => exact nomatch hr
  | load al w p k ih =>
    rw [run] at hr
    split at hr
    · split at hr
      · obtain ⟨t, h2, rfl⟩ := Out.cons_ok hr
        have := ih _ (h.2 _ (by simp)) h2
        have := h.1
        simp only [List.length_cons]; omega
      · exact nomatch hr
    · exact nomatch hr
  | store al p bs k ih =>
    rw [run] at hr
    split at hr
    · split at hr
      · split at hr
        · obtain ⟨t, h2, rfl⟩ := Out.cons_ok hr
          have := ih h.2 h2
          have := h.1
          simp only [List.length_cons]; omega
        · exact nomatch hr
      · exact nomatch hr
    · exact nomatch hr
  | branch b k ih =>
    rw [run] at hr
    obtain ⟨t, h2, rfl⟩ := Out.cons_ok hr
    have := ih h.2 h2
    have := h.1
    simp only [List.length_cons]; omega
  | getg g k ih =>
    rw [run] at hr
    obtain ⟨t, h2, rfl⟩ := Out.cons_ok hr
    have := ih _ (h.2 _) h2
    have := h.1
    simp only [List.length_cons]; omega
  | setg g v k ih =>
    rw [run] at hr
    obtain ⟨t, h2, rfl⟩ := Out.cons_ok hr
    have := ih h.2 h2
    have := h.1
    simp only [List.length_cons]; omega

/-! ## Building blocks -/

theorem steps_load (al w : Nat) (p : Ptr) : Steps (load al w p) 1 fun bs => bs.length = w := ⟨Nat.one_pos, fun _ h => h⟩
theorem steps_load8 (p : Ptr) : Steps (load8 p) 1 Triv := (steps_load 1 1 p).triv.map
theorem steps_load64 (p : Ptr) : Steps (load64 p) 1 Triv := (steps_load 8 8 p).triv.map
theorem steps_loadLen (p : Ptr) : Steps (loadLen p) 1 Triv := (steps_load 1 8 p).triv.map
theorem steps_store (al : Nat) (p : Ptr) (bs : List Byte) : Steps (store al p bs) 1 Triv := ⟨Nat.one_pos, trivial⟩
theorem steps_store8 (p : Ptr) (b : Byte) : Steps (store8 p b) 1 Triv := steps_store ..
theorem steps_store64 (p : Ptr) (x : BitVec 64) : Steps (store64 p x) 1 Triv := steps_store ..
theorem steps_storeLen (p : Ptr) (n : Nat) : Steps (storeLen p n) 1 Triv := steps_store ..
theorem steps_setg (g : Glob) (v : BitVec 64) : Steps (setg g v) 1 Triv := ⟨Nat.one_pos, trivial⟩
theorem steps_getg (g : Glob) : Steps (getg g) 1 Triv := ⟨Nat.one_pos, fun _ => trivial⟩
theorem steps_assert (b : Bool) : Steps (assert b) 0 Triv := by cases b <;> exact trivial

theorem steps_get (src : Src) (i : Nat) : Steps (src.get i) 1 Triv := by
  cases src with
  | ext p => exact steps_load8 _
  | loc bs =>
    show Steps (if i < bs.length then Pure.pure (bs.getD i 0) else ub .localOob) 1 Triv
    split <;> exact trivial

/-- A branch on `b`, then one of two blocks. -/
theorem steps_branch {b : Bool} {f g : CM α} {n : Nat} {Q : α → Prop} (h1 : b = true → Steps f n Q) (h2 : b = false → Steps g n Q) :
    Steps (branch b >>= fun b => if b = true then f else g) (n + 1) Q := by
  refine ⟨Nat.succ_pos _, ?_⟩
  cases b
  · exact h2 rfl
  · exact h1 rfl

theorem steps_ifThen {b : Bool} {f : CM Unit} {n : Nat} (h : b = true → Steps f n Triv) : Steps (ifThen b f) (n + 1) Triv :=
  steps_branch h fun _ => trivial

theorem steps_forQ {σ : Type} {body : Nat → σ → CM σ} {k : Nat} (I : Nat → σ → Prop)
    (h : ∀ i s, I i s → Steps (body i s) k (I (i + 1))) (n i : Nat) (s : σ) (hs : I i s) :
    Steps (forN n i body s) (n * (k + 1) + 1) (I (i + n)) := by
  induction n generalizing i s with
  | zero => exact ⟨Nat.succ_pos _, hs⟩
  | succ n ih =>
    have e : i + (n + 1) = i + 1 + n := by omega
    rw [e]
    refine ⟨Nat.succ_pos _, ?_⟩
    show Steps (body i s >>= fun s' => forN n (i + 1) body s') _ _
    exact ((h i s hs).bindQ fun s' hs' => ih (i + 1) s' hs').le (by rw [Nat.succ_mul]; omega)

theorem steps_for {σ : Type} {body : Nat → σ → CM σ} {k : Nat} (h : ∀ i s, Steps (body i s) k Triv) (n i : Nat) (s : σ) :
    Steps (forN n i body s) (n * (k + 1) + 1) Triv :=
  steps_forQ (fun _ => Triv) (fun i s _ => h i s) n i s trivial

theorem steps_whileGe {σ : Type} {r : Nat} (hr : 0 < r) {body : Nat → σ → CM σ} {k : Nat} (h : ∀ i s, Steps (body i s) k Triv)
    (len i : Nat) (s : σ) : Steps (whileGe r hr len i body s) (len / r * (k + 1) + 1) Triv := by
  rw [whileGe_eq]
  exact steps_for h _ _ _

theorem steps_whileRem {σ : Type} {r : Nat} (hr : 0 < r) {full last : Nat → σ → CM σ} {part : Nat → Nat → σ → CM σ} {k l : Nat}
    (h1 : ∀ i s, Steps (full i s) k Triv) (h2 : ∀ i s, Steps (last i s) l Triv)
    (h3 : ∀ i m s, m < r → Steps (part i m s) l Triv) (rem i : Nat) (s : σ) :
    Steps (whileRem r hr rem i full last part s) (rem / r * (k + 1) + l + 2) Triv := by
  induction rem using Nat.strongRecOn generalizing i s with
  | _ rem ih =>
    rw [whileRem]
    split
    · rename_i hl
      refine ⟨by omega, ?_⟩
      show Steps (full i s >>= fun s' => whileRem r hr (rem - r) (i + 1) full last part s') _ _
      refine ((h1 i s).bind fun s' => ih (rem - r) (by omega) (i + 1) s').le ?_
      rw [Nat.div_eq_sub_div hr (by omega : r ≤ rem), Nat.succ_mul]
      omega
    · refine ⟨by omega, by omega, ?_⟩
      show Steps (if decide (rem = r) = true then last i s else part i rem s) _ _
      split
      · exact (h2 i s).le (by omega)
      · rename_i h
        exact (h3 i rem s (by simp at h; omega)).le (by omega)

end C
