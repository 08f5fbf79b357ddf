import Verif.Model.RefArrays
import Verif.Proof.StateArrays
import Verif.Proof.RefMode
import Verif.Proof.BoundsK128
/-!
# The Keccak reference with its arrays `state` in memory does what it does with the arrays as values
-/

namespace C

/-- Whenever `f` ends normally, so does `g` started in a related memory, and the results are related. -/
def Rsim (e : Env) (R : St → St → Prop) (f : CM α) (g : CM β) (Q : α → St → β → St → Prop) : Prop :=
  ∀ s t, R s t → ∀ a s', Runs f e s a s' → ∃ b t', Runs g e t b t' ∧ Q a s' b t'

variable {e : Env} {R R' : St → St → Prop}

theorem Rsim.bind {f : CM α} {g : CM β} {F : α → CM γ} {G : β → CM δ} {Q : α → St → β → St → Prop} {Q' : γ → St → δ → St → Prop}
    (h : Rsim e R f g Q) (h' : ∀ a b, Rsim e (fun s t => Q a s b t) (F a) (G b) Q') : Rsim e R (f >>= F) (g >>= G) Q' := by
  intro s t hR c s' hr
  obtain ⟨a, s1, h1, h2⟩ := runs_bind_inv hr
  obtain ⟨b, t1, g1, q1⟩ := h s t hR a s1 h1
  obtain ⟨d, t2, g2, q2⟩ := h' a b s1 t1 q1 c s' h2
  exact ⟨d, t2, runs_bind g1 g2, q2⟩

/-- The same value on both sides. -/
def Eq2 (R : St → St → Prop) : α → St → α → St → Prop := fun a s b t => a = b ∧ R s t

theorem Rsim.bindEq {f g : CM α} {F : α → CM γ} {G : α → CM δ} {Q' : γ → St → δ → St → Prop}
    (h : Rsim e R f g (Eq2 R')) (h' : ∀ a, Rsim e R' (F a) (G a) Q') : Rsim e R (f >>= F) (g >>= G) Q' := by
  refine h.bind fun a b s t hq => ?_
  obtain ⟨rfl, hR⟩ := hq
  exact h' a s t hR

theorem Rsim.pure {a : α} {b : β} {Q : α → St → β → St → Prop} (h : ∀ s t, R s t → Q a s b t) :
    Rsim e R (Pure.pure a : CM α) (Pure.pure b : CM β) Q := by
  intro s t hR a' s' hr
  obtain ⟨rfl, rfl⟩ := hr.det (runs_pure _ _ _)
  exact ⟨b, t, runs_pure _ _ _, h _ t hR⟩

theorem Rsim.right {f : CM γ} {g : CM β} {G : β → CM δ} {Q' : γ → St → δ → St → Prop} (R' : St → β → St → Prop)
    (h : ∀ s t, R s t → ∃ b t', Runs g e t b t' ∧ R' s b t') (h' : ∀ b, Rsim e (fun s t => R' s b t) f (G b) Q') :
    Rsim e R f (g >>= G) Q' := by
  intro s t hR c s' hr
  obtain ⟨b, t1, g1, q1⟩ := h s t hR
  obtain ⟨d, t2, g2, q2⟩ := h' b s t1 q1 c s' hr
  exact ⟨d, t2, runs_bind g1 g2, q2⟩

theorem Rsim.assert {b : Bool} {F : Unit → CM γ} {G : Unit → CM δ} {Q' : γ → St → δ → St → Prop}
    (h : b = true → Rsim e R (F ()) (G ()) Q') : Rsim e R (assert b >>= F) (assert b >>= G) Q' := by
  intro s t hR c s' hr
  cases b with
  | false =>
    obtain ⟨_, _, ⟨tr, h1⟩, _⟩ := runs_bind_inv hr
    exact nomatch h1
  | true =>
    obtain ⟨_, _, h1, h2⟩ := runs_bind_inv hr
    obtain ⟨_, rfl⟩ := h1.det (runs_assert rfl e s)
    obtain ⟨d, t2, g2, q2⟩ := h rfl _ t hR c s' h2
    exact ⟨d, t2, runs_bind (runs_assert rfl _ _) g2, q2⟩

theorem Rsim.branch {b : Bool} {F : Bool → CM γ} {G : Bool → CM δ} {Q' : γ → St → δ → St → Prop}
    (h : Rsim e R (F b) (G b) Q') : Rsim e R (branch b >>= F) (branch b >>= G) Q' := by
  intro s t hR c s' hr
  obtain ⟨_, _, h1, h2⟩ := runs_bind_inv hr
  obtain ⟨rfl, rfl⟩ := h1.det (runs_branch b e s)
  obtain ⟨d, t2, g2, q2⟩ := h _ t hR c s' h2
  exact ⟨d, t2, runs_bind (runs_branch _ _ _) g2, q2⟩

theorem Rsim.forN {σ τ : Type} {f : Nat → σ → CM σ} {g : Nat → τ → CM τ} (n : Nat) : ∀ (i : Nat) (Q : Nat → σ → St → τ → St → Prop),
    (∀ j, j < n → ∀ x y, Rsim e (fun s t => Q j x s y t) (f (i + j) x) (g (i + j) y) (Q (j + 1))) → ∀ x y,
    Rsim e (fun s t => Q 0 x s y t) (C.forN n i f x) (C.forN n i g y) (Q n) := by
  induction n with
  | zero => exact fun i Q _ x y => Rsim.branch (Rsim.pure fun _ _ h => h)
  | succ n ih =>
    intro i Q h x y
    refine Rsim.branch ((h 0 (Nat.succ_pos _) x y).bind fun x y => ?_)
    refine ih (i + 1) (fun j => Q (j + 1)) (fun j hj x y => ?_) x y
    have := h (j + 1) (Nat.succ_lt_succ hj) x y
    rwa [show i + (j + 1) = i + 1 + j by omega] at this

theorem load_inv {s s' : St} {al w : Nat} {p : Ptr} {bs : List Byte} (h : Runs (load al w p) e s bs s') :
    bs = bytesAt s p w ∧ s' = s ∧ ∀ t, Runs (load al w p) e t (bytesAt t p w) t := by
  obtain ⟨tr, h⟩ := h
  simp only [load, run] at h
  split at h
  · rename_i h1
    split at h
    · rename_i h2
      simp only [Out.cons, Out.ok.injEq] at h
      refine ⟨h.1.symm, h.2.1.symm, fun t => ⟨[.rd p w], ?_⟩⟩
      simp only [load, run, h1, h2, if_true, Out.cons]
    · simp at h
  · simp at h

theorem store_inv {s s' : St} {al : Nat} {p : Ptr} {bs : List Byte} {u : Unit} (h : Runs (store al p bs) e s u s') :
    s' = putBytes s p bs ∧ ∀ t, Runs (store al p bs) e t () (putBytes t p bs) := by
  obtain ⟨tr, h⟩ := h
  simp only [store, run] at h
  split at h
  · rename_i h1
    split at h
    · rename_i h2
      split at h
      · rename_i h3
        simp only [Out.cons, Out.ok.injEq] at h
        refine ⟨h.2.1.symm, fun t => ⟨[.wr p bs.length], ?_⟩⟩
        simp only [store, run, h1, h2, h3, if_true, Out.cons]
      · simp at h
    · simp at h
  · simp at h

end C

namespace Model.KeccakRef.In
open C

/-- The memories are the same outside `L`, the arrays in `fr` have their contents, and `I` holds of the memory of the run without
arrays in memory. -/
structure Rel (I : St → Prop) (L : List Ptr) (fr : List (Ptr × List Byte)) (s t : St) : Prop where
  inv : I s
  same : SameOutside 50 L t s
  held : ∀ x ∈ fr, bytesAt t x.1 50 = x.2
  mem : ∀ x ∈ fr, x.1 ∈ L

/-- `p[0..n)` does not meet the arrays. -/
def Off (L : List Ptr) (p : Ptr) (n : Nat) : Prop := ∀ u ∈ L, Disjoint u 50 p n

variable {e : Env} {I : St → Prop} {L : List Ptr} {fr : List (Ptr × List Byte)} {r : Ptr} {S : List Byte}

theorem Off.part {p : Ptr} {n i m : Nat} (h : Off L p n) (hi : i + m ≤ n) : Off L (p + i) m := by
  intro u hu
  have := h u hu
  unfold Disjoint at *
  simp only [add_off, add_blk]
  omega

theorem Off.bytes {p : Ptr} {n : Nat} (h : Off L p n) {s t : St} (hs : SameOutside 50 L t s) : bytesAt t p n = bytesAt s p n := by
  apply List.ext_getElem
  · simp
  · intro i hi hi'
    simp only [length_bytesAt] at hi
    rw [getElem_bytesAt, getElem_bytesAt]
    refine hs _ _ fun u hu => ?_
    have := h u hu
    unfold Disjoint at this
    unfold InBuf
    omega

theorem sim_load {al w : Nat} {p : Ptr} (h : Off L p w) : Rsim e (Rel I L fr) (load al w p) (load al w p) (Eq2 (Rel I L fr)) := by
  intro s t hR a s' hr
  obtain ⟨rfl, rfl, hl⟩ := load_inv hr
  exact ⟨_, _, hl t, (h.bytes hR.same).symm, hR⟩

theorem sim_load8 {p : Ptr} (h : Off L p 1) : Rsim e (Rel I L fr) (load8 p) (load8 p) (Eq2 (Rel I L fr)) :=
  (sim_load h).bindEq fun _ => Rsim.pure fun _ _ h => ⟨rfl, h⟩

theorem sim_store {al : Nat} {p : Ptr} {bs : List Byte} (h : Off L p bs.length) (hI : ∀ s, I s → I (putBytes s p bs)) :
    Rsim e (Rel I L fr) (store al p bs) (store al p bs) (Eq2 (Rel I L fr)) := by
  intro s t hR a s' hr
  obtain ⟨rfl, hl⟩ := store_inv hr
  refine ⟨_, _, hl t, rfl, hI _ hR.inv, ?_, fun x hx => ?_, hR.mem⟩
  · intro b o hb
    rw [putBytes_mem, putBytes_mem, hR.same b o hb]
  · rw [bytesAt_putBytes_disjoint _ _ _ _ _ (h x.1 (hR.mem x hx))]
    exact hR.held x hx

/-- The array at `r` may be used while those in `fr` are alive. -/
structure Arr (e : Env) (L : List Ptr) (fr : List (Ptr × List Byte)) (r : Ptr) : Prop where
  mem : r ∈ L
  wr : Writable e r 50
  al : Aligned e 2 r 50
  off : ∀ x ∈ fr, Disjoint x.1 50 r 50

theorem Rel.len {s t : St} (h : Rel I L ((r, S) :: fr) s t) : S.length = 50 := by
  have := congrArg List.length (h.held _ (List.mem_cons_self ..))
  simpa using this.symm

/-- What is written into the array. -/
def over (S : List Byte) (i : Nat) (bs : List Byte) : List Byte := S.take i ++ bs ++ S.drop (i + bs.length)

theorem length_over {i : Nat} {bs : List Byte} (hi : i + bs.length ≤ S.length) : (over S i bs).length = S.length := by
  simp only [over, List.length_append, List.length_take, List.length_drop]; omega

theorem getElem?_over {i j : Nat} {bs : List Byte} (hi : i + bs.length ≤ S.length) :
    (over S i bs)[j]? = if i ≤ j ∧ j < i + bs.length then bs[j - i]? else S[j]? := by
  simp only [over, List.append_assoc, List.getElem?_append, List.length_take, Nat.min_eq_left (show i ≤ S.length by omega)]
  by_cases h1 : j < i
  · rw [if_pos h1, if_neg (by omega), List.getElem?_take_of_lt h1]
  · rw [if_neg h1]
    by_cases h2 : j - i < bs.length
    · rw [if_pos h2, if_pos (by omega)]
    · rw [if_neg h2, if_neg (by omega), List.getElem?_drop]
      congr 1; omega

theorem Rel.put {s t : St} (A : Arr e L fr r) (h : Rel I L ((r, S) :: fr) s t) {i : Nat} {bs : List Byte} (hi : i + bs.length ≤ 50) :
    Rel I L ((r, over S i bs) :: fr) s (putBytes t (r + i) bs) := by
  refine ⟨h.inv, fun b o hb => ?_, fun x hx => ?_, fun x hx => ?_⟩
  · rw [putBytes_mem, if_neg, h.same b o hb]
    have := hb r A.mem
    unfold InBuf at this
    simp only [add_blk, add_off]
    omega
  · rcases List.mem_cons.1 hx with rfl | hx
    · have hS : bytesAt t r 50 = S := h.held _ (List.mem_cons_self ..)
      have hl := h.len
      apply List.ext_getElem?
      intro j
      rw [getElem?_over (by omega), getElem?_bytesAt]
      simp only [putBytes_mem, add_blk, add_off, true_and]
      by_cases hj : j < 50
      · rw [if_pos hj]
        by_cases hc : i ≤ j ∧ j < i + bs.length
        · rw [if_pos (by omega), if_pos hc, List.getD, show r.off + j - (r.off + i) = j - i by omega,
            List.getElem?_eq_getElem (i := j - i) (l := bs) (by omega)]
          rfl
        · rw [if_neg (by omega), if_neg hc, ← hS, getElem?_bytesAt, if_pos hj]
      · rw [if_neg hj, if_neg (by omega), List.getElem?_eq_none (by omega)]
    · rw [bytesAt_putBytes_disjoint _ _ _ _ _ ?_]
      · exact h.held x (List.mem_cons_of_mem _ hx)
      · have := A.off x hx
        unfold Disjoint at *
        simp only [add_blk, add_off]
        omega
  · rcases List.mem_cons.1 hx with rfl | hx
    · exact A.mem
    · exact h.mem x (List.mem_cons_of_mem _ hx)

/-- A new array with indeterminate contents. -/
theorem Rel.open {s t : St} (A : Arr e L fr r) (h : Rel I L fr s t) : Rel I L ((r, bytesAt t r 50) :: fr) s t :=
  ⟨h.inv, h.same, fun x hx => by
    rcases List.mem_cons.1 hx with rfl | hx
    · rfl
    · exact h.held x hx, fun x hx => by
    rcases List.mem_cons.1 hx with rfl | hx
    · exact A.mem
    · exact h.mem x hx⟩

theorem Rel.close {s t : St} (h : Rel I L ((r, S) :: fr) s t) : Rel I L fr s t :=
  ⟨h.inv, h.same, fun x hx => h.held x (List.mem_cons_of_mem _ hx), fun x hx => h.mem x (List.mem_cons_of_mem _ hx)⟩

theorem Rel.ld {s t : St} (A : Arr e L fr r) (h : Rel I L ((r, S) :: fr) s t) {i : Nat} (hi : i < 50) :
    Runs (load8 (r + i)) e t (S.getD i 0) t := by
  have := runs_load8_at (e := e) (s := t) A.wr.readable hi
  rwa [h.held _ (List.mem_cons_self ..)] at this

/-- The array that a function on values returns is in memory. -/
def InArr (I : St → Prop) (L : List Ptr) (fr : List (Ptr × List Byte)) (r : Ptr) : List Byte → St → Unit → St → Prop :=
  fun S s _ t => Rel I L ((r, S) :: fr) s t

/-- The same with a second value. -/
def InArr2 (I : St → Prop) (L : List Ptr) (fr : List (Ptr × List Byte)) (r : Ptr) : List Byte × Nat → St → Nat → St → Prop :=
  fun x s y t => y = x.2 ∧ Rel I L ((r, x.1) :: fr) s t

/-- Sequence of stores into the array. -/
theorem runs_fill {s t : St} (A : Arr e L fr r) (h : Rel I L ((r, S) :: fr) s t) (X : List Byte) (w n : Nat) (al : Nat)
    (hal : Aligned e al r 50) (hw : al ∣ w) (hw0 : 0 < w) (hX : X.length = w * n) (hn : w * n ≤ 50) :
    ∃ t', Runs (forN n 0 (fun i (_ : Unit) => store al (r + w * i) ((X.drop (w * i)).take w)) ()) e t () t' ∧
      Rel I L ((r, over S 0 X) :: fr) s t' := by
  have hl := h.len
  have key : ∀ j, j ≤ n → ∃ tt : Nat → St, tt 0 = t ∧ (∀ i, i < j → Runs (store al (r + w * i) ((X.drop (w * i)).take w)) e (tt i) () (tt (i + 1))) ∧
      ∀ i, i ≤ j → Rel I L ((r, over S 0 (X.take (w * i))) :: fr) s (tt i) := by
    intro j hj
    refine ⟨fun i => Nat.rec t (fun i ti => putBytes ti (r + w * i) ((X.drop (w * i)).take w)) i, rfl, ?_, ?_⟩
    · intro i hi
      have hi1 : w * i + w ≤ w * n := by rw [← Nat.mul_succ]; exact Nat.mul_le_mul_left w (by omega)
      have hlen : ((X.drop (w * i)).take w).length = w := by simp; omega
      refine runs_store ?_ ?_ (by omega)
      · rw [hlen]
        exact hal.add (Nat.mod_eq_zero_of_dvd (Nat.dvd_trans hw (Nat.dvd_mul_right ..))) (by omega)
      · rw [hlen]; exact A.wr.add (by omega)
    · intro i
      induction i with
      | zero => intro _; simp only [Nat.mul_zero, List.take_zero, over, List.nil_append, List.length_nil, Nat.add_zero, List.drop_zero]; exact h
      | succ i ih =>
        intro hi
        have hi1 : w * i + w ≤ w * n := by rw [← Nat.mul_succ]; exact Nat.mul_le_mul_left w (by omega)
        have hlen : ((X.drop (w * i)).take w).length = w := by simp; omega
        have := (ih (by omega)).put A (i := w * i) (bs := (X.drop (w * i)).take w) (by omega)
        have e1 : over (over S 0 (X.take (w * i))) (w * i) ((X.drop (w * i)).take w) = over S 0 (X.take (w * (i + 1))) := by
          have hl1 : (X.take (w * i)).length = w * i := by simp; omega
          have hl2 : (X.take (w * (i + 1))).length = w * i + w := by rw [Nat.mul_succ]; simp; omega
          apply List.ext_getElem?
          intro k
          rw [getElem?_over (by rw [length_over (by omega)]; omega), getElem?_over (by omega), getElem?_over (by omega), hlen, hl1, hl2]
          by_cases h1 : k < w * i
          · rw [if_neg (by omega), if_pos (by omega), if_pos (by omega), List.getElem?_take_of_lt (by omega),
              List.getElem?_take_of_lt (by rw [Nat.mul_succ]; omega)]
          · by_cases h2 : k < w * i + w
            · rw [if_pos (by omega), if_pos (by omega), List.getElem?_take_of_lt (by omega),
                List.getElem?_take_of_lt (by rw [Nat.mul_succ]; omega), List.getElem?_drop]
              congr 1; omega
            · rw [if_neg (by omega), if_neg (by omega), if_neg (by omega)]
        rw [e1] at this
        exact this
  obtain ⟨tt, h0, h1, h2⟩ := key n (Nat.le_refl _)
  have hr := runs_forN (e := e) (f := fun i (_ : Unit) => store al (r + w * i) ((X.drop (w * i)).take w)) n 0 (fun _ => ()) tt
    (fun j hj => by rw [Nat.zero_add]; exact h1 j hj)
  rw [h0] at hr
  refine ⟨_, hr, ?_⟩
  have := h2 n (Nat.le_refl _)
  rwa [List.take_of_length_le (by omega)] at this

theorem over_all {X : List Byte} (h : S.length = X.length) : over S 0 X = X := by
  simp [over, List.drop_eq_nil_of_le (show S.length ≤ X.length by omega)]

theorem runs_initState {s t : St} (A : Arr e L fr r) (h : Rel I L fr s t) :
    ∃ t', Runs (initState r) e t () t' ∧ Rel I L ((r, List.replicate 50 0) :: fr) s t' := by
  obtain ⟨t', h1, h2⟩ := runs_fill A (h.open A) (List.replicate 50 0) 1 50 1 (aligned_one ..) (Nat.dvd_refl _) (by decide) (by simp) (by decide)
  refine ⟨t', ?_, ?_⟩
  · unfold initState store8
    have : ∀ n i x, i + n ≤ 50 → forN n i (fun i (_ : Unit) => store 1 (r + i) [0]) x =
        forN n i (fun i (_ : Unit) => store 1 (r + 1 * i) (((List.replicate 50 (0 : Byte)).drop (1 * i)).take 1)) x := by
      intro n
      induction n with
      | zero => intros; rfl
      | succ n ih =>
        intro i x hi
        simp only [forN]
        have e1 : ((List.replicate 50 (0 : Byte)).drop (1 * i)).take 1 = [0] := by
          rw [List.drop_replicate, List.take_replicate, show min 1 (50 - 1 * i) = 1 by omega]; rfl
        rw [e1, Nat.one_mul]
        simp only [fun x => ih (i + 1) x (by omega)]
    rw [this 50 0 () (by omega)]
    exact h1
  · rwa [over_all (by simp)] at h2

theorem Rsim.pureRight {R : St → St → Prop} {a : α} {g : CM β} {Q : α → St → β → St → Prop}
    (h : ∀ s t, R s t → ∃ b t', Runs g e t b t' ∧ Q a s b t') : Rsim e R (pure a : CM α) g Q := by
  intro s t hR a' s' hr
  obtain ⟨rfl, rfl⟩ := hr.det (runs_pure _ _ _)
  exact h _ t hR

/-- The source is not in the arrays. -/
def SrcOff (L : List Ptr) (src : Src) (n : Nat) : Prop :=
  match src with
  | .ext p => Off L p n
  | .loc _ => True

theorem sim_get {src : Src} {n i : Nat} (h : SrcOff L src n) (hi : i < n) :
    Rsim e (Rel I L fr) (src.get i) (src.get i) (Eq2 (Rel I L fr)) := by
  cases src with
  | ext p => exact sim_load8 (Off.part h (by omega))
  | loc bs =>
    simp only [Src.get]
    split
    · exact Rsim.pure fun _ _ h => ⟨rfl, h⟩
    · intro s t _ a s' ⟨tr, hr⟩
      exact nomatch hr

/-- The configuration of a Keccak reference implementation. -/
structure IsK (G : Ref.Cfg) : Prop where
  sz : G.stateSz = 50
  perm : G.permute = KeccakRef.permute

variable {G : Ref.Cfg} (K : IsK G) (A : Arr e L fr r)
include K A

theorem sim_addBytes {src : Src} {off len : Nat} (h : SrcOff L src len) :
    Rsim e (Rel I L ((r, S) :: fr)) (Ref.addBytes G S src off len) (addBytes r src off len) (InArr I L fr r) := by
  unfold Ref.addBytes addBytes
  rw [K.sz]
  refine Rsim.assert fun h1 => Rsim.assert fun h2 => ?_
  simp only [decide_eq_true_eq] at h1 h2
  refine Rsim.forN len 0 (fun _ x s _ t => Rel I L ((r, x) :: fr) s t) (fun j hj x _ => ?_) S ()
  rw [Nat.zero_add]
  refine (sim_get h hj).bindEq fun d => Rsim.pureRight fun s t hR => ?_
  have hp := hR.put A (i := off + j) (bs := [x.getD (off + j) 0 ^^^ d]) (by simp; omega)
  refine ⟨(), _, runs_bind (hR.ld A (by omega)) (runs_store8 (A.wr.add (by omega))), ?_⟩
  have hl := hR.len
  have : over x (off + j) [x.getD (off + j) 0 ^^^ d] = x.modify (off + j) (· ^^^ d) := by
    apply List.ext_getElem?
    intro k
    rw [getElem?_over (by simp; omega), List.getElem?_modify]
    by_cases hk : off + j = k
    · subst hk
      rw [if_pos (by simp)]
      simp [List.getD, show off + j < x.length by omega]
    · rw [if_neg (by simp; omega)]; simp [hk]
  rwa [this] at hp

theorem sim_addLoc {bs : List Byte} {off len : Nat} :
    Rsim e (Rel I L ((r, S) :: fr)) (Ref.addBytes G S (.loc bs) off len) (addBytes r (.loc bs) off len) (InArr I L fr r) :=
  sim_addBytes K A (src := .loc bs) trivial

theorem sim_overwrite (hS : S.length = 50) {src : Src} {off len : Nat} (h : SrcOff L src len) :
    Rsim e (fun s t => ∃ T, Rel I L ((r, T) :: fr) s t ∧ ∀ i, ¬ (off ≤ i ∧ i < off + len) → S[i]? = T[i]?)
      (Ref.overwriteBytes G S src off len) (overwriteBytes r src off len) (InArr I L fr r) := by
  unfold Ref.overwriteBytes overwriteBytes
  rw [K.sz]
  refine Rsim.assert fun h1 => Rsim.assert fun h2 => ?_
  simp only [decide_eq_true_eq] at h1 h2
  have key := Rsim.forN (e := e) len 0 (fun j x s (_ : Unit) t => ∃ T, x.length = 50 ∧ Rel I L ((r, T) :: fr) s t ∧
      ∀ i, ¬ (off + j ≤ i ∧ i < off + len) → x[i]? = T[i]?)
    (f := fun i st => do let d ← src.get i; pure (st.set (off + i) d))
    (g := fun i _ => do let d ← src.get i; store8 (r + (off + i)) d) (fun j hj x y => ?_) S ()
  · intro s t ⟨T, hR, hT⟩ a s' hr
    obtain ⟨b, t', hr', T', hl, hR', hT'⟩ := key s t ⟨T, hS, hR, hT⟩ a s' hr
    refine ⟨b, t', hr', ?_⟩
    have : a = T' := List.ext_getElem? fun i => hT' i (by omega)
    rw [this]; exact hR'
  · rw [Nat.zero_add]
    intro s t ⟨T, hl, hR, hT⟩
    refine Rsim.bindEq (R := Rel I L ((r, T) :: fr)) (sim_get h hj) (fun d => Rsim.pureRight fun s t hR => ?_) s t hR
    refine ⟨(), _, runs_store8 (A.wr.add (by omega)), over T (off + j) [d], by simpa using hl, hR.put A (by simp; omega), fun i hi => ?_⟩
    have hTl := hR.len
    rw [getElem?_over (by simp; omega), List.getElem?_set]
    by_cases hk : off + j = i
    · subst hk
      rw [if_pos rfl, if_pos (by omega), if_pos (by simp)]
      simp
    · rw [if_neg hk, if_neg (by simp; omega)]
      exact hT i (by omega)

theorem sim_extract {off len : Nat} :
    Rsim e (Rel I L ((r, S) :: fr)) (Ref.extractBytes G S off len) (extractBytes r off len)
      (fun a s b t => (a = b ∧ a.length = len) ∧ Rel I L ((r, S) :: fr) s t) := by
  unfold Ref.extractBytes extractBytes
  rw [K.sz]
  refine Rsim.assert fun h1 => Rsim.assert fun h2 => Rsim.pureRight fun s t hR => ?_
  simp only [decide_eq_true_eq] at h1 h2
  have hl := hR.len
  have := runs_forN_pure (e := e) (s := t) len 0 (fun j => (S.drop off).take j)
    (f := fun i acc => do let b ← load8 (r + (off + i)); pure (acc ++ [b])) (fun j hj => by
      rw [Nat.zero_add]
      refine runs_bind (hR.ld A (by omega)) (runs_eq (runs_pure _ _ _) ?_)
      rw [List.take_add_one, List.getElem?_drop, List.getElem?_eq_getElem (by omega)]
      simp [List.getD, show off + j < S.length by omega])
  exact ⟨_, _, this, ⟨rfl, by simp; omega⟩, hR⟩

theorem sim_permute {n : Nat} :
    Rsim e (Rel I L ((r, S) :: fr)) (G.permute S n) (permute r n) (InArr I L fr r) := by
  rw [K.perm]
  obtain ⟨X, hX, hXl⟩ : ∃ X, KeccakRef.permute S n = pure X ∧ X.length = 50 := ⟨_, rfl, K128.Opt64.Chk.length_unwords _⟩
  rw [hX]
  refine Rsim.pureRight fun s t hR => ?_
  have hl := hR.len
  have hS : bytesAt t r 50 = S := hR.held _ (List.mem_cons_self ..)
  have h1 := runs_forN_pure (e := e) (s := t) 25 0 (fun j => S.take (2 * j))
    (f := fun i acc => do let w ← load 2 2 (r + 2 * i); pure (acc ++ w)) (fun j hj => by
      rw [Nat.zero_add]
      refine runs_bind (runs_load (A.al.add (by omega) (by omega)) (A.wr.readable.add (by omega)) (by decide)) (runs_eq (runs_pure _ _ _) ?_)
      have h3 := bytesAt_drop t r 50 (2 * j)
      rw [hS] at h3
      have h4 := bytesAt_take t (r + 2 * j) (50 - 2 * j) 2 (by omega)
      rw [← h3] at h4
      rw [← h4, show 2 * (j + 1) = 2 * j + 2 by omega, List.take_add])
  have h50 : S.take (2 * 25) = S := List.take_of_length_le (by omega)
  replace h1 := runs_eq h1 h50
  obtain ⟨t', h2, hR'⟩ := runs_fill A hR X 2 25 2 A.al (Nat.dvd_refl _) (by decide) (by omega) (by decide)
  have hp : Runs (KeccakRef.permute S n) e t X t := by rw [hX]; exact runs_pure _ _ _
  refine ⟨(), t', runs_bind h1 (runs_bind hp h2), ?_⟩
  rwa [over_all (by omega)] at hR'

theorem sim_refill {n avail : Nat} :
    Rsim e (Rel I L ((r, S) :: fr)) (Ref.refill G n S avail) (refill G r n avail) (InArr2 I L fr r) := by
  refine Rsim.branch ?_
  split
  · exact (sim_permute K A).bind fun S' _ => Rsim.pure fun _ _ h => ⟨rfl, h⟩
  · exact Rsim.pure fun _ _ h => ⟨rfl, h⟩

/-- The array of `isap_rk` keeps the bytes that it returns. -/
theorem sim_isapRk_keeps {k : Ptr} {iv : List Byte} {inp : Src} {inlen outlen : Nat} (hk : Off L k 16) (hi : SrcOff L inp inlen) (hn : 0 < inlen) :
    Rsim e (Rel I L fr) (Ref.isapRk G k iv inp inlen outlen) (isapRk G r k iv inp inlen outlen)
      (fun a s b t => (a = b ∧ a.length = outlen) ∧ ∃ Z, Z.take outlen = a ∧ Rel I L ((r, Z) :: fr) s t) := by
  unfold Ref.isapRk isapRk
  rw [K.sz]
  refine Rsim.right (fun s _ t => Rel I L ((r, List.replicate 50 0) :: fr) s t) (fun s t h => ?_) fun _ => ?_
  · obtain ⟨t', h1, h2⟩ := runs_initState A h
    exact ⟨(), t', h1, h2⟩
  refine (sim_addBytes K A (src := .ext k) hk).bind fun S _ => (sim_addLoc K A).bind fun S _ => (sim_permute K A).bind fun S _ => ?_
  refine (Rsim.forN (inlen * 8 - 1) 0 (fun _ => InArr I L fr r) (fun j hj S _ => ?_) S ()).bind fun S _ => ?_
  · rw [Nat.zero_add]
    exact Rsim.bindEq (R' := Rel I L ((r, S) :: fr)) (sim_get hi (by omega)) fun b => (sim_addLoc K A).bind fun S _ => sim_permute K A
  refine Rsim.bindEq (R' := Rel I L ((r, S) :: fr)) (sim_get hi (by omega)) fun b => ?_
  refine (sim_addLoc K A).bind fun S _ => (sim_permute K A).bind fun S _ => ?_
  intro s t hR a s' hr
  obtain ⟨b, t', h1, h2, h3⟩ := sim_extract K A s t hR a s' hr
  obtain ⟨_, _, h4, h5⟩ := runs_bind_inv hr
  obtain ⟨_, _, h6, h5⟩ := runs_bind_inv h5
  obtain ⟨rfl, _⟩ := h5.det (runs_pure _ _ _)
  exact ⟨b, t', h1, h2, S, rfl, h3⟩

theorem sim_isapRk {k : Ptr} {iv : List Byte} {inp : Src} {inlen outlen : Nat} (hk : Off L k 16) (hi : SrcOff L inp inlen) (hn : 0 < inlen) :
    Rsim e (Rel I L fr) (Ref.isapRk G k iv inp inlen outlen) (isapRk G r k iv inp inlen outlen)
      (fun a s b t => (a = b ∧ a.length = outlen) ∧ Rel I L fr s t) := by
  intro s t hR a s' hr
  obtain ⟨b, t', h1, h2, Z, _, h3⟩ := sim_isapRk_keeps K A hk hi hn s t hR a s' hr
  exact ⟨b, t', h1, h2, h3.close⟩

theorem sim_absorbAd {ad : Ptr} {n : Nat} (h : Off L ad n) :
    Rsim e (Rel I L ((r, S) :: fr)) (Ref.absorbAd G S ad n) (absorbAd G r ad n) (InArr2 I L fr r) := by
  intro s t hR
  refine Rsim.forN n 0 (fun _ => InArr2 I L fr r) (fun j hj x y => ?_) (S, G.rHsz) G.rHsz s t ⟨rfl, hR⟩
  rw [Nat.zero_add]
  intro s t ⟨hy, hR⟩
  subst hy
  refine (Rsim.bind (R := Rel I L ((r, x.1) :: fr)) (sim_refill K A) fun x y => ?_) s t hR
  intro s t ⟨hy, hR⟩
  subst hy
  refine Rsim.bindEq (R := Rel I L ((r, x.1) :: fr)) (sim_load8 (h.part (by omega))) (fun d => ?_) s t hR
  exact (sim_addLoc K A).bind fun S _ => Rsim.pure fun _ _ h => ⟨rfl, h⟩

theorem sim_absorbC {c : Ptr} {n : Nat} (h : Off L c n) :
    Rsim e (Rel I L ((r, S) :: fr)) (Ref.absorbC G S c n) (absorbC G r c n) (InArr2 I L fr r) := by
  intro s t hR
  refine Rsim.forN n 0 (fun _ => InArr2 I L fr r) (fun j hj x y => ?_) (S, G.rHsz) G.rHsz s t ⟨rfl, hR⟩
  rw [Nat.zero_add]
  intro s t ⟨hy, hR⟩
  subst hy
  refine Rsim.bindEq (R := Rel I L ((r, x.1) :: fr)) (sim_load8 (h.part (by omega))) (fun d => ?_) s t hR
  exact (sim_addLoc K A).bind fun S _ => sim_refill K A

end Model.KeccakRef.In
