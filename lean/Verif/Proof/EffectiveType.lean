import Verif.C.EffectiveType
/-!
# Accesses by words and alignment
-/

namespace C

theorem cons_ok {α : Type} {x : Out α} {ev : Ev} {a : α} {s : St} {tr : List Ev} (h : x.cons ev = .ok a s tr) :
    ∃ tr', x = .ok a s tr' := by
  cases x with
  | ok b s' tr' => simp only [Out.cons, Out.ok.injEq] at h; exact ⟨tr', by rw [h.1, h.2.1]⟩
  | ub u => exact nomatch h

/-- There is an address for which the access at `p` is misaligned. -/
theorem exists_misaligned (e : Env) (p : Ptr) {al : Nat} (h : al ≠ 1) :
    ∃ base, alignedOk { e with base := base, strict := true } p al = false := by
  by_cases h0 : (1 + p.off) % al = 0
  · refine ⟨fun _ => 2, ?_⟩
    have : ¬ (2 + p.off) % al = 0 := by
      intro h2
      by_cases ha : al = 0
      · subst ha; rw [Nat.mod_zero] at h2; omega
      · have h3 : (1 + (1 + p.off)) % al = 0 := by rw [← Nat.add_assoc]; exact h2
        rw [Nat.add_mod, h0, Nat.add_zero, Nat.mod_mod, Nat.mod_eq_of_lt (by omega)] at h3
        omega
    simpa [alignedOk] using this
  · exact ⟨fun _ => 1, by simpa [alignedOk] using h0⟩

/-- Code that makes an access by words fails for some addresses of the objects on a platform with alignment requirements. -/
theorem words_fail (f : CM α) : ∀ (e : Env) (s : St), (∃ x ∈ accesses f s, x.al ≠ 1) →
    ∃ base, ∀ a s', ¬ Runs f { e with base := base, strict := true } s a s' := by
  induction f with
  | ret a => intro e s ⟨x, h, _⟩; exact nomatch h
  | ub u => intro e s ⟨x, h, _⟩; exact nomatch h
  | load al w p k ih =>
    intro e s ⟨x, h, hx⟩
    rcases List.mem_cons.1 h with rfl | h
    · obtain ⟨base, hb⟩ := exists_misaligned e p hx
      refine ⟨base, fun a s' ⟨tr, hr⟩ => ?_⟩
      simp only [run, hb] at hr
      split at hr <;> exact nomatch hr
    · obtain ⟨base, hb⟩ := ih _ e s ⟨x, h, hx⟩
      refine ⟨base, fun a s' ⟨tr, hr⟩ => ?_⟩
      simp only [run] at hr
      split at hr
      · split at hr
        · obtain ⟨tr', h'⟩ := cons_ok hr; exact hb a s' ⟨tr', h'⟩
        · exact nomatch hr
      · exact nomatch hr
  | store al p bs k ih =>
    intro e s ⟨x, h, hx⟩
    rcases List.mem_cons.1 h with rfl | h
    · obtain ⟨base, hb⟩ := exists_misaligned e p hx
      refine ⟨base, fun a s' ⟨tr, hr⟩ => ?_⟩
      simp only [run, hb] at hr
      split at hr <;> exact nomatch hr
    · obtain ⟨base, hb⟩ := ih e _ ⟨x, h, hx⟩
      refine ⟨base, fun a s' ⟨tr, hr⟩ => ?_⟩
      simp only [run] at hr
      split at hr
      · split at hr
        · split at hr
          · obtain ⟨tr', h'⟩ := cons_ok hr; exact hb a s' ⟨tr', h'⟩
          · exact nomatch hr
        · exact nomatch hr
      · exact nomatch hr
  | branch b k ih =>
    intro e s h
    obtain ⟨base, hb⟩ := ih e s h
    exact ⟨base, fun a s' ⟨tr, hr⟩ => by obtain ⟨tr', h'⟩ := cons_ok hr; exact hb a s' ⟨tr', h'⟩⟩
  | getg g k ih =>
    intro e s h
    obtain ⟨base, hb⟩ := ih _ e s h
    exact ⟨base, fun a s' ⟨tr, hr⟩ => by obtain ⟨tr', h'⟩ := cons_ok hr; exact hb a s' ⟨tr', h'⟩⟩
  | setg g v k ih =>
    intro e s h
    obtain ⟨base, hb⟩ := ih e _ h
    exact ⟨base, fun a s' ⟨tr, hr⟩ => by obtain ⟨tr', h'⟩ := cons_ok hr; exact hb a s' ⟨tr', h'⟩⟩

/-- Code that makes no access by words does not depend on addresses. -/
theorem chars_run (f : CM α) : ∀ (e : Env) (s : St) (base : Nat → Nat) (strict : Bool), (∀ x ∈ accesses f s, x.al = 1) →
    run f { e with base := base, strict := strict } s = run f e s := by
  have al1 (e : Env) (p : Ptr) : alignedOk e p 1 = true := by simp [alignedOk, Nat.mod_one]
  induction f with
  | ret a => intros; rfl
  | ub u => intros; rfl
  | load al w p k ih =>
    intro e s base strict h
    have hal : al = 1 := h _ (List.mem_cons_self ..)
    subst hal
    have h := ih (bytesAt s p w) e s base strict fun x hx => h x (List.mem_cons_of_mem _ hx)
    simp only [run, al1, h]
    rfl
  | store al p bs k ih =>
    intro e s base strict h
    have hal : al = 1 := h _ (List.mem_cons_self ..)
    subst hal
    have h := ih e (putBytes s p bs) base strict fun x hx => h x (List.mem_cons_of_mem _ hx)
    simp only [run, al1, h]
    rfl
  | branch b k ih => intro e s base strict h; exact congrArg _ (ih e s base strict h)
  | getg g k ih => intro e s base strict h; exact congrArg _ (ih _ e s base strict h)
  | setg g v k ih => intro e s base strict h; exact congrArg _ (ih e _ base strict h)

/-- Accesses of a sequence whose first part ends normally. -/
theorem accesses_bind (f : CM α) (g : α → CM β) {e : Env} : ∀ {s s' : St} {a : α}, Runs f e s a s' →
    accesses (f >>= g) s = accesses f s ++ accesses (g a) s' := by
  show ∀ {s s' : St} {a : α}, Runs f e s a s' → accesses (CM.bind f g) s = _
  induction f with
  | ret a =>
    intro s s' b ⟨tr, h⟩
    simp only [run, Out.ok.injEq] at h
    rw [← h.1, ← h.2.1]; rfl
  | ub u => intro s s' b ⟨tr, h⟩; exact nomatch h
  | load al w p k ih =>
    intro s s' b ⟨tr, h⟩
    simp only [run] at h
    split at h
    · split at h
      · obtain ⟨tr', h'⟩ := cons_ok h; simp only [CM.bind, accesses, ih _ ⟨tr', h'⟩, List.cons_append]
      · exact nomatch h
    · exact nomatch h
  | store al p bs k ih =>
    intro s s' b ⟨tr, h⟩
    simp only [run] at h
    split at h
    · split at h
      · split at h
        · obtain ⟨tr', h'⟩ := cons_ok h; simp only [CM.bind, accesses, ih ⟨tr', h'⟩, List.cons_append]
        · exact nomatch h
      · exact nomatch h
    · exact nomatch h
  | branch b k ih => intro s s' b ⟨tr, h⟩; obtain ⟨tr', h'⟩ := cons_ok h; exact ih ⟨tr', h'⟩
  | getg g k ih => intro s s' b ⟨tr, h⟩; obtain ⟨tr', h'⟩ := cons_ok h; exact ih _ ⟨tr', h'⟩
  | setg g v k ih => intro s s' b ⟨tr, h⟩; obtain ⟨tr', h'⟩ := cons_ok h; exact ih ⟨tr', h'⟩

/-- An access in the second part. -/
theorem access_right {f : CM α} {g : α → CM β} {e : Env} {s s' : St} {a : α} (h : Runs f e s a s') {x : Access}
    (hx : x ∈ accesses (g a) s') : x ∈ accesses (f >>= g) s := by
  rw [accesses_bind f g h]; exact List.mem_append_right _ hx

/-- An access in the first part. -/
theorem access_left {f : CM α} {g : α → CM β} {e : Env} {s s' : St} {a : α} (h : Runs f e s a s') {x : Access}
    (hx : x ∈ accesses f s) : x ∈ accesses (f >>= g) s := by
  rw [accesses_bind f g h]; exact List.mem_append_left _ hx

end C
