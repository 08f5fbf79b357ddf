import Verif.Model.KeccakRef
import Verif.Proof.AsconSpec
import Verif.Proof.RefMode
/-!
# `KeccakP-400-reference.c` computes Keccak-p[400]
-/

namespace Spec.Keccak

theorem eta (A : State) : A = #v[A[0], A[1], A[2], A[3], A[4], A[5], A[6], A[7], A[8], A[9], A[10], A[11], A[12], A[13],
    A[14], A[15], A[16], A[17], A[18], A[19], A[20], A[21], A[22], A[23], A[24]] := by
  apply Vector.ext
  intro i hi
  have : i = 0 ∨ i = 1 ∨ i = 2 ∨ i = 3 ∨ i = 4 ∨ i = 5 ∨ i = 6 ∨ i = 7 ∨ i = 8 ∨ i = 9 ∨ i = 10 ∨ i = 11 ∨ i = 12 ∨
    i = 13 ∨ i = 14 ∨ i = 15 ∨ i = 16 ∨ i = 17 ∨ i = 18 ∨ i = 19 ∨ i = 20 ∨ i = 21 ∨ i = 22 ∨ i = 23 ∨ i = 24 := by omega
  rcases this with rfl | rfl | rfl | rfl | rfl | rfl | rfl | rfl | rfl | rfl | rfl | rfl | rfl | rfl | rfl | rfl | rfl |
    rfl | rfl | rfl | rfl | rfl | rfl | rfl | rfl <;> rfl

/-- To prove something of every state it suffices to prove it of states given by 25 lanes. -/
theorem cases25 {motive : State → Prop}
    (h : ∀ a0 a1 a2 a3 a4 a5 a6 a7 a8 a9 a10 a11 a12 a13 a14 a15 a16 a17 a18 a19 a20 a21 a22 a23 a24,
      motive #v[a0, a1, a2, a3, a4, a5, a6, a7, a8, a9, a10, a11, a12, a13, a14, a15, a16, a17, a18, a19, a20, a21, a22,
        a23, a24]) (A : State) : motive A := by
  rw [eta A]; apply h

theorem ofLanes_congr {f g : Nat → Nat → BitVec 16} (h : ∀ x y, x < 5 → y < 5 → f x y = g x y) : ofLanes f = ofLanes g := by
  apply Vector.ext
  intro i hi
  simp only [ofLanes, Vector.getElem_ofFn]
  exact h _ _ (by omega) (by omega)

theorem lane_ofLanes (f : Nat → Nat → BitVec 16) {x y : Nat} : lane (ofLanes f) x y = f (x % 5) (y % 5) := by
  simp only [lane, ofLanes, Vector.getElem_ofFn]
  congr 1 <;> omega

end Spec.Keccak

namespace Model.KeccakRef
open C Spec

theorem rol16_eq (a : BitVec 16) {n : Nat} (h : n < 16) : rol16 a n = a.rotateLeft n := by
  rw [BitVec.rotateLeft_def, Nat.mod_eq_of_lt h, rol16]
  split
  · rename_i h0
    apply BitVec.eq_of_getLsbD_eq
    intro i hi
    simp only [BitVec.getLsbD_xor, BitVec.getLsbD_or, BitVec.getLsbD_shiftLeft, BitVec.getLsbD_ushiftRight, hi,
      decide_true, Bool.true_and]
    by_cases h2 : i < n
    · simp [h2]
    · simp [h2, BitVec.getLsbD_of_ge a (16 - n + i) (by omega)]
  · rename_i h0
    have : n = 0 := by omega
    subst this
    apply BitVec.eq_of_getLsbD_eq
    intro i hi
    simp

theorem get_eq_lane (A : Lanes) (x y : Nat) : get A x y = Keccak.lane A x y := rfl

/-- Writing each position at most once: a written position has the value computed from the old content. -/
theorem foldl_set_mem {ι : Type} (pos : ι → Fin 25) (g : ι → BitVec 16 → BitVec 16) (l : List ι) (A : Lanes)
    (hn : (l.map pos).Nodup) :
    (∀ i ∈ l, (l.foldl (fun A i => A.set (pos i) (g i A[pos i])) A)[pos i] = g i A[pos i]) ∧
    (∀ j : Fin 25, j ∉ l.map pos → (l.foldl (fun A i => A.set (pos i) (g i A[pos i])) A)[j] = A[j]) := by
  induction l generalizing A with
  | nil => simp
  | cons k l ih =>
    simp only [List.map_cons, List.nodup_cons] at hn
    have ih := ih (A.set (pos k) (g k A[pos k])) hn.2
    constructor
    · intro i hi
      rw [List.foldl_cons]
      by_cases hp : pos i ∈ l.map pos
      · have hne : pos k ≠ pos i := fun h => hn.1 (h ▸ hp)
        have hil : i ∈ l := by
          rcases List.mem_cons.1 hi with rfl | h
          · exact absurd rfl hne
          · exact h
        rw [ih.1 i hil]
        congr 1
        simp only [Fin.getElem_fin]
        rw [Vector.getElem_set_ne]
        intro h; exact hne (Fin.ext h)
      · have hik : i = k := by
          rcases List.mem_cons.1 hi with rfl | h
          · rfl
          · exact absurd (List.mem_map_of_mem h) hp
        subst hik
        rw [ih.2 _ hp]
        simp
    · intro j hj
      simp only [List.map_cons, List.mem_cons, not_or] at hj
      rw [List.foldl_cons, ih.2 j hj.2]
      simp only [Fin.getElem_fin]
      rw [Vector.getElem_set_ne]
      intro h; exact hj.1 (Fin.ext h.symm)

/-- The index pairs in loop order. -/
def pairs : List (Nat × Nat) := (List.range 5).flatMap fun x => (List.range 5).map fun y => (x, y)

theorem forXY_pairs (f : Nat → Nat → Lanes → Lanes) (A : Lanes) :
    forXY f A = pairs.foldl (fun A p => f p.1 p.2 A) A := by
  simp only [forXY, pairs, List.foldl_flatMap, List.foldl_map]

theorem mem_pairs {x y : Nat} (hx : x < 5) (hy : y < 5) : (x, y) ∈ pairs := by
  simp [pairs]; omega

/-- Loops that write to every position of the state once. -/
theorem forXY_get (u v : Nat → Nat → Nat) (g : Nat → Nat → BitVec 16 → BitVec 16) (A : Lanes)
    (hn : (pairs.map fun p => (⟨index (u p.1 p.2) (v p.1 p.2), index_lt _ _⟩ : Fin 25)).Nodup)
    {x y : Nat} (hx : x < 5) (hy : y < 5) :
    get (forXY (fun x y A => set A (u x y) (v x y) (g x y (get A (u x y) (v x y)))) A) (u x y) (v x y) =
      g x y (get A (u x y) (v x y)) := by
  rw [forXY_pairs]
  have h := (foldl_set_mem (fun p => (⟨index (u p.1 p.2) (v p.1 p.2), index_lt _ _⟩ : Fin 25)) (fun p => g p.1 p.2) pairs
    A hn).1 (x, y) (mem_pairs hx hy)
  simpa only [get, set, Fin.getElem_fin] using h

theorem lanes_ext {A B : Lanes} (h : ∀ x y, x < 5 → y < 5 → get A x y = get B x y) : A = B := by
  apply Vector.ext
  intro i hi
  have := h (i % 5) (i / 5) (by omega) (by omega)
  simp only [get, index] at this
  have e : i % 5 % 5 + 5 * (i / 5 % 5) = i := by omega
  simpa only [e] using this

theorem get_ofLanes (f : Nat → Nat → BitVec 16) (x y : Nat) : get (Keccak.ofLanes f) x y = f (x % 5) (y % 5) :=
  Keccak.lane_ofLanes f

theorem forXY_map (g : Nat → Nat → BitVec 16 → BitVec 16) (A : Lanes) :
    forXY (fun x y A => set A x y (g x y (get A x y))) A = Keccak.ofLanes fun x y => g x y (Keccak.lane A x y) := by
  apply lanes_ext
  intro x y hx hy
  rw [forXY_get (fun x _ => x) (fun _ y => y) g A (by decide) hx hy, get_ofLanes, Nat.mod_eq_of_lt hx, Nat.mod_eq_of_lt hy]
  rfl

theorem theta_eq (A : Lanes) : theta A = Keccak.theta A := by
  unfold theta
  simp only []
  rw [forXY_map (fun x _ a => a ^^^ _)]
  apply Keccak.ofLanes_congr
  intro x y hx hy
  have hx' : x = 0 ∨ x = 1 ∨ x = 2 ∨ x = 3 ∨ x = 4 := by omega
  rw [BitVec.xor_assoc, BitVec.xor_comm (Keccak.parity A (x + 4))]
  congr 1
  rcases hx' with rfl | rfl | rfl | rfl | rfl <;>
    simp [List.range, List.range.loop, rol16_eq _ (show 1 < 16 by omega), Keccak.parity, get, Keccak.lane, index]

theorem rho_eq (A : Lanes) : rho A = Keccak.rho A := by
  unfold rho
  rw [forXY_map (fun x y a => rol16 a (rhoOffsets.getD (index x y) 0))]
  apply Keccak.ofLanes_congr
  intro x y hx hy
  have h : ∀ x < 5, ∀ y < 5, rhoOffsets.getD (index x y) 0 = Keccak.rhoOffset x y ∧ rhoOffsets.getD (index x y) 0 < 16 := by
    decide
  rw [rol16_eq _ (h x hx y hy).2, (h x hx y hy).1]

theorem get_congr (A : Lanes) {x y x' y' : Nat} (hx : x % 5 = x' % 5) (hy : y % 5 = y' % 5) : get A x y = get A x' y' := by
  simp only [get, index, hx, hy]

theorem pi_eq (A : Lanes) : pi A = Keccak.pi A := by
  apply lanes_ext
  intro x y hx hy
  have h := forXY_get (fun x y => 0 * x + 1 * y) (fun x y => 2 * x + 3 * y) (fun x y _ => get A x y) A (by decide)
    (x := (x + 3 * y) % 5) (y := x) (by omega) hx
  rw [get_congr _ (x' := 0 * ((x + 3 * y) % 5) + 1 * x) (y' := 2 * ((x + 3 * y) % 5) + 3 * x) (by omega) (by omega)]
  refine h.trans ?_
  rw [Keccak.pi, get_ofLanes, ← get_eq_lane]
  exact get_congr _ (by omega) (by omega)

/-- One iteration of the outer loop of `chi`. -/
def chiRow (y : Nat) (A : Lanes) : Lanes :=
  let C : List (BitVec 16) := (List.range 5).map fun x => get A x y ^^^ (~~~ get A (x + 1) y &&& get A (x + 2) y)
  (List.range 5).foldl (fun A x => set A x y (C.getD x 0)) A

theorem get_chiRow (y : Nat) (hy : y < 5) (A : Lanes) {x y' : Nat} (hx : x < 5) (hy' : y' < 5) :
    get (chiRow y A) x y' =
      if y' = y then get A x y ^^^ (~~~ get A (x + 1) y &&& get A (x + 2) y) else get A x y' := by
  have h := foldl_set_mem (fun x => (⟨index x y, index_lt _ _⟩ : Fin 25))
    (fun x _ => ((List.range 5).map fun x => get A x y ^^^ (~~~ get A (x + 1) y &&& get A (x + 2) y)).getD x 0)
    (List.range 5) A (by revert y; decide)
  split
  · rename_i e
    subst e
    have := h.1 x (List.mem_range.2 hx)
    simp only [List.getD, List.getElem?_map, List.getElem?_range hx, Option.map_some, Option.getD_some] at this
    rw [← this]
    simp only [chiRow, get, set, List.getD, Fin.getElem_fin, List.getElem?_map]
  · rename_i e
    have := h.2 (⟨index x y', index_lt _ _⟩ : Fin 25) (by
      simp only [List.mem_map, List.mem_range, not_exists, not_and, Fin.mk.injEq, index]
      intro a _ h; omega)
    simp only [get]
    rw [Fin.getElem_fin] at this
    simp only [Fin.getElem_fin] at this
    rw [← this]
    rfl

theorem chi_eq (A : Lanes) : chi A = Keccak.chi A := by
  have hc : chi A = chiRow 4 (chiRow 3 (chiRow 2 (chiRow 1 (chiRow 0 A)))) := rfl
  rw [hc]
  apply lanes_ext
  intro x y hx hy
  rw [Keccak.chi, get_ofLanes]
  simp only [Nat.mod_eq_of_lt hx, Nat.mod_eq_of_lt hy, ← get_eq_lane]
  have hy' : y = 0 ∨ y = 1 ∨ y = 2 ∨ y = 3 ∨ y = 4 := by omega
  have m1 : ∀ (B : Lanes) y, get B (x + 1) y = get B ((x + 1) % 5) y := fun B y => get_congr B (by omega) rfl
  have m2 : ∀ (B : Lanes) y, get B (x + 2) y = get B ((x + 2) % 5) y := fun B y => get_congr B (by omega) rfl
  have l1 : (x + 1) % 5 < 5 := by omega
  have l2 : (x + 2) % 5 < 5 := by omega
  rcases hy' with rfl | rfl | rfl | rfl | rfl <;> simp [get_chiRow, hx, m1, m2, l1, l2]

theorem iota_eq (A : Lanes) {i : Nat} (h : i < 20) : iota A i = Keccak.iota i A := by
  have hc : roundConstants.getD i 0 = Keccak.rc i := by revert i; decide
  unfold iota
  rw [hc]
  generalize hr : Keccak.rc i = c
  apply lanes_ext
  intro x y hx hy
  rw [Keccak.iota, get_ofLanes, hr]
  simp only [Nat.mod_eq_of_lt hx, Nat.mod_eq_of_lt hy, ← get_eq_lane]
  split
  · rename_i e
    obtain ⟨rfl, rfl⟩ := e
    simp [get, set]
  · rename_i e
    simp only [get, set]
    rw [Vector.getElem_set_ne]
    simp only [index]; omega

theorem round_eq (A : Lanes) {i : Nat} (h : i < 20) : round i A = Keccak.round i A := by
  rw [round, theta_eq, rho_eq, pi_eq, chi_eq, iota_eq _ h]; rfl

theorem roundLoop_eq (n : Nat) : ∀ (i : Nat) (A : Lanes), i + n ≤ 20 → roundLoop i n A = Keccak.rounds i n A := by
  induction n with
  | zero => intro i A _; rfl
  | succ n ih =>
    intro i A h
    rw [roundLoop, Keccak.rounds, round_eq _ (by omega), ih _ _ (by omega)]

theorem words_eq (S : List Byte) : words S = Keccak.ofBytes S := rfl

theorem unwords_eq (A : Lanes) : unwords A = Keccak.toBytes A := by
  have : A.toList = (List.range 25).map fun i => Keccak.lane A (i % 5) (i / 5) := by
    apply List.ext_getElem
    · simp
    · intro i h1 h2
      simp only [Vector.length_toList] at h1
      simp only [Vector.getElem_toList, List.getElem_map, List.getElem_range, Keccak.lane]
      congr 1; omega
  rw [unwords, this, List.flatMap_map]
  rfl

theorem runs_permute {e : Env} {s : St} (S : List Byte) {n : Nat} (h : n ≤ 20) :
    Runs (permute S n) e s (Keccak.perm n S) s := by
  refine runs_eq (runs_pure _ _ _) ?_
  rw [if_pos h, words_eq, unwords_eq, roundLoop_eq n _ _ (by omega)]
  rfl

end Model.KeccakRef

namespace Spec.Keccak

theorem length_toBytes (A : State) : (toBytes A).length = 50 := by
  simp [toBytes, List.length_flatMap]; rfl

theorem length_perm (n : Nat) (S : List Byte) : (perm n S).length = 50 := length_toBytes _

end Spec.Keccak

namespace Model.KeccakRef
open C Spec

theorem wfK128a : isapK128a.Wf :=
  ⟨by decide, by decide, by decide, fun k S _ => Keccak.length_perm k S⟩
theorem wfK128 : isapK128.Wf :=
  ⟨by decide, by decide, by decide, fun k S _ => Keccak.length_perm k S⟩

theorem cfgK128a_ok : Ref.CfgOK cfgK128a isapK128a where
  wf := wfK128a
  n := rfl
  r := rfl
  sH := rfl
  sB := rfl
  sE := rfl
  sK := rfl
  perm := fun e s S k hk _ => runs_permute S (by revert k; decide)

theorem cfgK128_ok : Ref.CfgOK cfgK128 isapK128 where
  wf := wfK128
  n := rfl
  r := rfl
  sH := rfl
  sB := rfl
  sE := rfl
  sK := rfl
  perm := fun e s S k hk _ => runs_permute S (by revert k; decide)

end Model.KeccakRef
