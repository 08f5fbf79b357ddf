import Verif.Spec.Queries
import Verif.Proof.SpecLemmas
/-!
# ISAP depends on the permutation only through the prescribed queries
-/

namespace Spec.Params
variable {P : Params} {perm' : Nat → List Byte → List Byte}

/-- `P` with another permutation. -/
abbrev withPerm (P : Params) (perm' : Nat → List Byte → List Byte) : Params := { P with perm := perm' }

/-- `perm'` gives the same answers to the queries `Q` as the permutation of `P`. -/
def Agrees (P : Params) (perm' : Nat → List Byte → List Byte) (Q : List (Nat × List Byte)) : Prop :=
  ∀ x ∈ Q, perm' x.1 x.2 = P.perm x.1 x.2

theorem agrees_append {Q R : List (Nat × List Byte)} : Agrees P perm' (Q ++ R) ↔ Agrees P perm' Q ∧ Agrees P perm' R := by
  simp only [Agrees, List.mem_append]
  exact ⟨fun h => ⟨fun x hx => h x (.inl hx), fun x hx => h x (.inr hx)⟩, fun h x hx => hx.elim (h.1 x) (h.2 x)⟩

theorem agrees_cons {x : Nat × List Byte} {Q : List (Nat × List Byte)} :
    Agrees P perm' (x :: Q) ↔ perm' x.1 x.2 = P.perm x.1 x.2 ∧ Agrees P perm' Q := by
  simp only [Agrees, List.mem_cons]
  exact ⟨fun h => ⟨h x (.inl rfl), fun y hy => h y (.inr hy)⟩, fun h y hy => hy.elim (fun e => e ▸ h.1) (h.2 y)⟩

theorem agrees_absorb {s : Nat} : ∀ {Bs : List (List Byte)} {S : List Byte}, Agrees P perm' (P.absorbQueries s S Bs) →
    Bs.foldl (fun S B => perm' s (xorFront S B)) S = Bs.foldl (fun S B => P.perm s (xorFront S B)) S
  | [], _, _ => rfl
  | B :: Bs, S, h => by
    rw [absorbQueries, agrees_cons] at h
    simp only [List.foldl_cons]
    rw [h.1]
    exact agrees_absorb h.2

theorem agrees_rk {K iv Y : List Byte} (h : Agrees P perm' (P.rkQueries K iv Y)) (z : Nat) :
    (P.withPerm perm').rk K iv Y z = P.rk K iv Y z := by
  rw [rkQueries, agrees_append, agrees_cons, agrees_cons] at h
  obtain ⟨⟨h1, h2⟩, h3, _⟩ := h
  have h2 := agrees_absorb h2
  rw [List.foldl_map, List.foldl_map] at h2
  simp only [rk, pK, pB, initState]
  rw [show perm' P.sK (K ++ iv ++ zeros (P.n - 24)) = P.perm P.sK (K ++ iv ++ zeros (P.n - 24)) from h1]
  exact (congrArg (fun S => (perm' P.sK (xorFront S [bitByte ((bits Y).getLastD false)])).take z) h2).trans
    (congrArg (List.take z) h3)

theorem agrees_macState {K N A C : List Byte} (h : Agrees P perm' (P.macQueries K N A C)) :
    (P.withPerm perm').macState N A C = P.macState N A C := by
  rw [macQueries, agrees_append, agrees_append, agrees_append, agrees_cons] at h
  obtain ⟨⟨⟨⟨h1, h2⟩, h3⟩, -⟩, -⟩ := h
  have h2 := agrees_absorb h2
  have h3 := agrees_absorb h3
  show List.foldl (fun S B => perm' P.sH (xorFront S B)) (P.domSep (List.foldl (fun S B => perm' P.sH (xorFront S B))
    (perm' P.sH (P.initState N P.ivA)) (blocks P.r A))) (blocks P.r C) = _
  rw [show perm' P.sH (P.initState N P.ivA) = P.perm P.sH (P.initState N P.ivA) from h1]
  exact (congrArg (fun S => List.foldl (fun S B => perm' P.sH (xorFront S B)) (P.domSep S) (blocks P.r C)) h2).trans h3

theorem agrees_mac {K N A C : List Byte} (h : Agrees P perm' (P.macQueries K N A C)) :
    (P.withPerm perm').mac K N A C = P.mac K N A C := by
  have hs := agrees_macState h
  rw [macQueries, agrees_append, agrees_append] at h
  obtain ⟨⟨-, h4⟩, h5⟩ := h
  have h4 := agrees_rk h4 16
  have h5 := (agrees_cons.1 h5).1
  show (perm' P.sH ((P.withPerm perm').rk K P.ivKA (((P.withPerm perm').macState N A C).take 16) 16 ++
    ((P.withPerm perm').macState N A C).drop 16)).take 16 = _
  rw [hs, h4]
  exact congrArg (List.take 16) h5

theorem agrees_enc (hr : 0 < P.r) {K N M : List Byte} (h : Agrees P perm' (P.encQueries K N M.length)) :
    (P.withPerm perm').enc K N M = P.enc K N M := by
  apply List.ext_getElem
  · simp [enc]
  · intro i h1 h2
    have hi : i < M.length := by simpa [enc] using h2
    rw [encQueries, if_neg (by omega), agrees_append] at h
    obtain ⟨hk, hE⟩ := h
    have hk := agrees_rk hk (P.n - 16)
    have hin : (P.withPerm perm').encInit K N = P.encInit K N := congrArg (· ++ N) hk
    have hrep : ∀ j, j ≤ (M.length + P.r - 1) / P.r →
        Nat.repeat (perm' P.sE) j (P.encInit K N) = Nat.repeat P.pE j (P.encInit K N) := by
      intro j hj
      induction j with
      | zero => rfl
      | succ j ih =>
        simp only [Nat.repeat]
        rw [ih (by omega)]
        exact hE (P.sE, Nat.repeat P.pE j (P.encInit K N)) (List.mem_map.2 ⟨j, List.mem_range.2 (by omega), rfl⟩)
    have hj : i / P.r + 1 ≤ (M.length + P.r - 1) / P.r := by
      rw [← Nat.add_div_right _ hr]
      exact Nat.div_le_div_right (by omega)
    simp only [enc, List.getElem_mapIdx, keystream]
    congr 1
    show (Nat.repeat (perm' P.sE) (i / P.r + 1) ((P.withPerm perm').encInit K N)).getD (i % P.r) 0 = _
    rw [hin, hrep _ hj]

theorem agrees_encrypt (hr : 0 < P.r) {K N A M : List Byte} (h : Agrees P perm' (P.encryptQueries K N A M)) :
    (P.withPerm perm').encrypt K N A M = P.encrypt K N A M := by
  rw [encryptQueries, agrees_append] at h
  have h1 := agrees_enc hr h.1
  show (P.withPerm perm').enc K N M ++ (P.withPerm perm').mac K N A ((P.withPerm perm').enc K N M) = _
  rw [h1, agrees_mac h.2]
  rfl

theorem agrees_accepts {K N A C T : List Byte} (h : Agrees P perm' (P.macQueries K N A C ++ P.stpQueries K N A C T)) :
    Stp.Accepts (P.withPerm perm') K N A C T ↔ Stp.Accepts P K N A C T := by
  rw [agrees_append] at h
  obtain ⟨h1, h2⟩ := h
  rw [stpQueries, agrees_cons, agrees_cons] at h2
  obtain ⟨h2, h3, -⟩ := h2
  simp only [Stp.Accepts, Stp.image]
  rw [agrees_macState h1, agrees_mac h1]
  rw [show perm' 7 _ = _ from h2, show perm' 7 _ = _ from h3]

/-! ## The inputs have the right length -/

theorem length_xorFront_le {S B : List Byte} {n : Nat} (hS : S.length = n) (hB : B.length ≤ n) : (xorFront S B).length = n := by
  rw [length_xorFront (by omega), hS]

theorem len_absorb (W : P.Wf) (s : Nat) {Bs : List (List Byte)} {S : List Byte} (hS : S.length = P.n)
    (hB : ∀ B ∈ Bs, B.length ≤ P.n) : ∀ x ∈ P.absorbQueries s S Bs, x.2.length = P.n := by
  induction Bs generalizing S with
  | nil => intro x hx; exact nomatch hx
  | cons B Bs ih =>
    intro x hx
    have hl := length_xorFront_le hS (hB B List.mem_cons_self)
    rcases List.mem_cons.1 hx with rfl | hx
    · exact hl
    · exact ih (W.perm_len _ _ hl) (fun B hB' => hB B (List.mem_cons_of_mem _ hB')) x hx

theorem len_fold (W : P.Wf) (s : Nat) {Bs : List (List Byte)} {S : List Byte} (hS : S.length = P.n)
    (hB : ∀ B ∈ Bs, B.length ≤ P.n) : (Bs.foldl (fun S B => P.perm s (xorFront S B)) S).length = P.n := by
  induction Bs generalizing S with
  | nil => exact hS
  | cons B Bs ih =>
    exact ih (W.perm_len _ _ (length_xorFront_le hS (hB B List.mem_cons_self))) fun B hB' => hB B (List.mem_cons_of_mem _ hB')

theorem len_blocks {r : Nat} (hr : 0 < r) {X : List Byte} : ∀ B ∈ blocks r X, B.length = r := by
  intro B hB
  rw [blocks_eq hr] at hB
  rcases List.mem_append.1 hB with h | h
  · obtain ⟨i, hi, rfl⟩ := List.mem_map.1 h
    exact length_blk (List.mem_range.1 hi)
  · rw [List.mem_singleton.1 h]
    have h1 := Nat.div_add_mod' X.length r
    have h2 := Nat.mod_lt X.length hr
    simp [zeros]
    omega

theorem len_bits (W : P.Wf) (l : List Bool) : ∀ B ∈ l.map fun b => [bitByte b], B.length ≤ P.n := by
  intro B hB
  obtain ⟨b, -, rfl⟩ := List.mem_map.1 hB
  have := W.n_ge
  simp only [List.length_singleton]; omega

theorem len_rkQueries (W : P.Wf) {K : List Byte} (hK : K.length = 16) (i : Nat) (Y : List Byte) :
    ∀ x ∈ P.rkQueries K (P.iv i) Y, x.2.length = P.n := by
  have h0 := length_initState W i hK
  have hn := W.n_ge
  intro x hx
  rw [rkQueries, List.mem_append, List.mem_cons, List.mem_singleton] at hx
  rcases hx with (rfl | hx) | rfl
  · exact h0
  · exact len_absorb W _ (W.len_pK h0) (len_bits W _) x hx
  · refine length_xorFront_le ?_ (by simp only [List.length_singleton]; omega)
    have := len_fold W P.sB (W.len_pK h0) (len_bits W (bits Y).dropLast)
    rw [List.foldl_map] at this
    exact this

theorem length_macState (W : P.Wf) {N : List Byte} (A C : List Byte) (hN : N.length = 16) :
    (P.macState N A C).length = P.n := by
  refine length_absorb W C ?_
  have := length_absorb W A (W.len_pH (length_initState W 1 hN))
  rw [show P.ivA = P.iv 1 from rfl, domSep_eq W this, length_xorAt, this]

theorem len_macQueries (W : P.Wf) {K N : List Byte} (hK : K.length = 16) (hN : N.length = 16) (A C : List Byte) :
    ∀ x ∈ P.macQueries K N A C, x.2.length = P.n := by
  have h0 := length_initState W 1 hN
  have hn := W.n_ge
  have hr := W.r_lt
  have hb : ∀ X, ∀ B ∈ blocks P.r X, B.length ≤ P.n := fun X B hB => by rw [len_blocks W.r_pos B hB]; omega
  have hm := length_absorb W A (W.len_pH h0)
  have hs := length_macState W A C hN
  intro x hx
  rw [macQueries, List.mem_append, List.mem_append, List.mem_append, List.mem_cons, List.mem_singleton] at hx
  rcases hx with (((rfl | hx) | hx) | hx) | rfl
  · exact h0
  · exact len_absorb W _ (W.len_pH h0) (hb A) x hx
  · refine len_absorb W _ ?_ (hb C) x hx
    rw [macMiddle, show P.ivA = P.iv 1 from rfl, domSep_eq W hm, length_xorAt]; exact hm
  · exact len_rkQueries W hK 2 _ x hx
  · rw [List.length_append, show P.ivKA = P.iv 2 from rfl, length_rk W 2 16 hK (by simp; omega) (by omega), List.length_drop, hs]; omega

theorem len_repeat (W : P.Wf) {K N : List Byte} (hK : K.length = 16) (hN : N.length = 16) (j : Nat) :
    (Nat.repeat P.pE j (P.encInit K N)).length = P.n := by
  induction j with
  | zero => exact length_encInit W hK hN
  | succ j ih => exact W.len_pE ih

theorem len_encQueries (W : P.Wf) {K N : List Byte} (hK : K.length = 16) (hN : N.length = 16) (l : Nat) :
    ∀ x ∈ P.encQueries K N l, x.2.length = P.n := by
  intro x hx
  unfold encQueries at hx
  split at hx
  · exact nomatch hx
  · rcases List.mem_append.1 hx with hx | hx
    · exact len_rkQueries W hK 3 _ x hx
    · obtain ⟨j, -, rfl⟩ := List.mem_map.1 hx
      exact len_repeat W hK hN j

/-! ## Their number -/

theorem count_absorb (s : Nat) (S : List Byte) (Bs : List (List Byte)) : (P.absorbQueries s S Bs).length = Bs.length := by
  induction Bs generalizing S with
  | nil => rfl
  | cons B Bs ih => simp [absorbQueries, ih]

theorem count_rk (K iv : List Byte) {Y : List Byte} (hY : Y.length = 16) : (P.rkQueries K iv Y).length = 129 := by
  simp [rkQueries, count_absorb, length_bits, hY]

theorem count_mac (W : P.Wf) (K : List Byte) {N : List Byte} (A C : List Byte) (hN : N.length = 16) :
    (P.macQueries K N A C).length = A.length / P.r + C.length / P.r + 133 := by
  have hs := length_macState W A C hN
  have hn := W.n_ge
  have hb : ∀ X, (blocks P.r X).length = X.length / P.r + 1 := fun X => by rw [blocks_eq W.r_pos]; simp
  simp only [macQueries, List.length_append, List.length_cons, List.length_nil, count_absorb, hb]
  rw [count_rk _ _ (by simp; omega)]
  omega

theorem count_enc (K : List Byte) {N : List Byte} (l : Nat) (hN : N.length = 16) :
    (P.encQueries K N l).length = if l = 0 then 0 else 129 + (l + P.r - 1) / P.r := by
  unfold encQueries
  split
  · rfl
  · simp [count_rk _ _ hN]

end Spec.Params
