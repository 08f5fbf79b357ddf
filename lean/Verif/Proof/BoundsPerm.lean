import Verif.Proof.BoundsRef
/-!
# The reference permutations never leave their arrays and tables
-/

namespace Model.AsconRef.Chk
open C

theorem load64_eq {S : List Byte} {o : Nat} (h : o + 8 ≤ S.length) :
    load64 (Arr.of S) o = .ret (AsconRef.load64 (S.drop o)) := by
  unfold load64
  have := loopN_eq (n := 8) (i := 0) (fun x : BitVec 64 => x)
    (f := fun i x => do let b ← aget (Arr.of S) (o + i); pure (x ||| (b.setWidth 64 <<< (56 - i * 8))))
    (g := fun i x => x ||| (((S.drop o).getD i 0).setWidth 64 <<< (56 - i * 8))) (fun j s _ hj => ?_) 0
  · exact this
  · rw [aget_ofD 0 (by omega)]
    simp only [List.getD, List.getElem?_drop]
    rfl

theorem store64_eq {S : Arr Byte} {o : Nat} (x : BitVec 64) (h : o + 8 ≤ S.length) :
    store64 S o x = .ret (S.take o ++ Arr.of (AsconRef.store64 x) ++ S.drop (o + 8)) := by
  unfold store64
  rw [loopN_write (f := fun i => pure ((x >>> (56 - i * 8)).setWidth 8)) (v := fun i => (x >>> (56 - i * 8)).setWidth 8) (fun _ _ _ => rfl) (by omega)]
  rw [awrites_eq (by simp; omega)]
  rfl

theorem permute_chk (S : List Byte) (n : Nat) (hS : S.length = 40) :
    Chk (fun a b => a = Arr.of b ∧ b.length = 40) (permute (Arr.of S) n) (AsconRef.permute S n) := by
  unfold permute AsconRef.permute
  refine (chk_assert _).bindEq fun _ => ?_
  refine .step (load64_eq (by omega)) ?_
  refine .step (load64_eq (by omega)) ?_
  refine .step (load64_eq (by omega)) ?_
  refine .step (load64_eq (by omega)) ?_
  refine .step (load64_eq (by omega)) ?_
  have l8 : ∀ x, (AsconRef.store64 x).length = 8 := fun x => by simp [AsconRef.store64]
  have e : S.drop 0 = S := rfl
  rw [e]
  dsimp only
  generalize roundLoop (12 - n) n _ = s
  refine .step (store64_eq _ (by simp; omega)) ?_
  refine .step (store64_eq _ (by simp [l8]; omega)) ?_
  refine .step (store64_eq _ (by simp [l8]; omega)) ?_
  refine .step (store64_eq _ (by simp [l8]; omega)) ?_
  rw [store64_eq _ (by simp [l8]; omega)]
  refine .ret ⟨?_, by simp [l8]⟩
  have d : ∀ (A B : Arr Byte) (n : Nat), A.length = n → (A ++ B).take n = A := by
    intro A B n h; subst h; simp
  have d' : ∀ (A B : Arr Byte) (n m : Nat), A.length = n → (A ++ B).drop (n + m) = B.drop m := by
    intro A B n m h; subst h; simp
  have a8 : ∀ x, (Arr.of (AsconRef.store64 x)).length = 8 := fun x => by simp [l8]
  have s0 : (Arr.of S).take 0 ++ Arr.of (AsconRef.store64 s.x0) ++ (Arr.of S).drop (0 + 8)
      = Arr.of (AsconRef.store64 s.x0) ++ (Arr.of S).drop 8 := by simp
  rw [s0]
  have e8 : ∀ (A B C : Arr Byte) (m : Nat), A.length = m → B.length = 8 →
      (A ++ (Arr.of S).drop m).take m ++ B ++ (A ++ (Arr.of S).drop m).drop (m + 8) = (A ++ B) ++ (Arr.of S).drop (m + 8) := by
    intro A B C m hA hB
    rw [d _ _ _ hA, d' _ _ _ _ hA, List.drop_drop]
  rw [e8 _ _ [] 8 (a8 _) (a8 _)]
  rw [e8 _ _ [] 16 (by simp [l8]) (a8 _)]
  rw [e8 _ _ [] 24 (by simp [l8]) (a8 _)]
  rw [e8 _ _ [] 32 (by simp [l8]) (a8 _)]
  rw [List.drop_eq_nil_of_le (by simp [hS])]
  simp only [Arr.of, List.map_append, List.append_nil]

theorem okA128a : Ref.Chk.Ok cfgA128a := ⟨rfl, by decide, by decide, fun S n h => permute_chk S n h⟩
theorem okA128 : Ref.Chk.Ok cfgA128 := ⟨rfl, by decide, by decide, fun S n h => permute_chk S n h⟩

end Model.AsconRef.Chk

namespace Model.KeccakRef.Chk
open C

/-- The array of a vector of lanes. -/
def emb (A : Lanes) : LArr := Arr.of A.toList

theorem aget_emb (A : Lanes) (x y : Nat) : aget (emb A) (index x y) = .ret (get A x y) := by
  rw [emb, aget_of (by rw [Vector.length_toList]; exact index_lt x y)]
  congr 1

theorem aset_emb (A : Lanes) (x y : Nat) (v : BitVec 16) : aset (emb A) (index x y) v = .ret (emb (set A x y v)) := by
  rw [emb, aset_of (by rw [Vector.length_toList]; exact index_lt x y)]
  simp only [emb, set, Vector.toList_set]

/-- Nested loops all of whose steps succeed. -/
theorem forXY_eq {f : Nat → Nat → LArr → CM LArr} {g : Nat → Nat → Lanes → Lanes}
    (h : ∀ x y A, x < 5 → y < 5 → f x y (emb A) = .ret (emb (g x y A))) (A : Lanes) :
    forXY f (emb A) = .ret (emb (KeccakRef.forXY g A)) := by
  unfold forXY
  exact loopN_eq (n := 5) (i := 0) emb (g := fun x A => (List.range 5).foldl (fun A y => g x y A) A)
    (fun x A _ hx => loopN_eq (n := 5) (i := 0) emb (g := fun y A => g x y A) (fun y A _ hy => h x y A (by omega) (by omega)) A) A

/-- Filling an array of 5 elements. -/
theorem fill5 {f : Nat → CM (BitVec 16)} {v : Nat → BitVec 16} (h : ∀ x, x < 5 → f x = .ret (v x)) (T : LArr) (hT : T.length = 5) :
    loopN 5 0 (fun x T => do let w ← f x; aset T (0 + x) w) T = .ret (Arr.of ((List.range 5).map v)) := by
  rw [loopN_write (v := v) (fun j _ hj => h j (by omega)) (by omega), awrites_all (by simp [hT])]
  rfl

theorem thetaC_eq (A : Lanes) :
    loopN 5 0 (fun x C => do
      let C ← aset C x 0
      loopN 5 0 (fun y C => do
        let c ← aget C x
        let a ← aget (emb A) (index x y)
        aset C x (c ^^^ a)) C) (Arr.new 5) =
      .ret (Arr.of ((List.range 5).map fun x => (List.range 5).foldl (fun c y => c ^^^ get A x y) 0)) := by
  have inner : ∀ (x : Nat) (T : LArr), x < T.length →
      (do
        let C ← aset T x 0
        loopN 5 0 (fun y C => do
          let c ← aget C x
          let a ← aget (emb A) (index x y)
          aset C x (c ^^^ a)) C) = aset T (0 + x) ((List.range 5).foldl (fun c y => c ^^^ get A x y) 0) := by
    intro x T hT
    rw [aset_lt hT, Nat.zero_add, aset_lt hT, ret_bind]
    refine loopN_eq (n := 5) (i := 0) (fun c => T.set x (some c)) (g := fun y c => c ^^^ get A x y) (fun y c _ _ => ?_) 0
    rw [aget_set hT]
    show (aget (emb A) (index x y) >>= fun a => aset _ x (c ^^^ a)) = _
    rw [aget_emb]
    show aset _ x _ = _
    rw [aset_lt (by simpa using hT), List.set_set]
  have : ∀ n i (T : LArr), i + n ≤ T.length →
      loopN n i (fun x C => do
        let C ← aset C x 0
        loopN 5 0 (fun y C => do
          let c ← aget C x
          let a ← aget (emb A) (index x y)
          aset C x (c ^^^ a)) C) T =
      loopN n i (fun x C => do
        let w ← (pure ((List.range 5).foldl (fun c y => c ^^^ get A x y) 0) : CM (BitVec 16))
        aset C (0 + x) w) T := by
    intro n
    induction n with
    | zero => intros; rfl
    | succ n ih =>
      intro i T h
      rw [loopN, loopN, inner i T (by omega)]
      show (aset T (0 + i) _ >>= _) = (aset T (0 + i) _ >>= _)
      rw [aset_lt (by omega)]
      exact ih (i + 1) _ (by simp; omega)
  rw [this 5 0 _ (by simp [Arr.new]), fill5 (f := fun x => pure ((List.range 5).foldl (fun c y => c ^^^ get A x y) 0)) (fun _ _ => rfl) _ (by simp [Arr.new])]

theorem theta_eq (A : Lanes) : theta (emb A) = .ret (emb (KeccakRef.theta A)) := by
  unfold theta KeccakRef.theta
  rw [thetaC_eq]
  generalize hC : ((List.range 5).map fun x => (List.range 5).foldl (fun c y => c ^^^ get A x y) (0 : BitVec 16)) = C'
  have lC : C'.length = 5 := by rw [← hC]; simp
  show (loopN 5 0 _ _ >>= _) = _
  rw [fill5 (v := fun x => rol16 (C'.getD ((x + 1) % 5) 0) 1 ^^^ C'.getD ((x + 4) % 5) 0) (fun x _ => by
    rw [aget_ofD 0 (by omega), aget_ofD 0 (by omega)]; rfl) _ (by simp [Arr.new])]
  generalize hD : ((List.range 5).map fun x => rol16 (C'.getD ((x + 1) % 5) 0) 1 ^^^ C'.getD ((x + 4) % 5) 0) = D'
  have lD : D'.length = 5 := by rw [← hD]; simp
  rw [ret_bind]
  dsimp only
  rw [hD]
  refine forXY_eq (fun x y A hx _ => ?_) A
  rw [aget_emb, aget_ofD 0 (by omega)]
  exact aset_emb _ _ _ _

theorem rho_eq (A : Lanes) : rho (emb A) = .ret (emb (KeccakRef.rho A)) := by
  refine forXY_eq (fun x y A _ _ => ?_) A
  rw [aget_emb, aget_ofD 0 (show index x y < rhoOffsets.length from index_lt x y)]
  exact aset_emb _ _ _ _

theorem temp_eq (A : Lanes) :
    forXY (fun x y T => do let a ← aget (emb A) (index x y); aset T (index x y) a) (Arr.new 25) = .ret (emb A) := by
  have e : (fun x y (T : LArr) => do let a ← aget (emb A) (index x y); aset T (index x y) a) =
      fun x y T => aset T (index x y) (get A x y) := by
    funext x y T
    rw [aget_emb]; rfl
  rw [e]
  have inner : ∀ x (T : LArr), x < 5 → T.length = 25 → (∀ x' y, x' < x → y < 5 → T[index x' y]? = some (some (get A x' y))) →
      ∃ T', loopN 5 0 (fun y T => aset T (index x y) (get A x y)) T = .ret T' ∧ T'.length = 25 ∧
        ∀ x' y, x' < x + 1 → y < 5 → T'[index x' y]? = some (some (get A x' y)) := by
    intro x T hx hT h
    have step : ∀ y (T : LArr), 0 ≤ y → y < 0 + 5 → (T.length = 25 ∧
        ∀ x' y', x' < x ∧ y' < 5 ∨ x' = x ∧ y' < y → T[index x' y']? = some (some (get A x' y'))) →
        ∃ T', aset T (index x y) (get A x y) = .ret T' ∧ (T'.length = 25 ∧
        ∀ x' y', x' < x ∧ y' < 5 ∨ x' = x ∧ y' < y + 1 → T'[index x' y']? = some (some (get A x' y'))) := by
      rintro y T _ hy ⟨hT, h⟩
      have hl : index x y < T.length := by rw [hT]; exact index_lt x y
      refine ⟨_, aset_lt hl, by simpa using hT, fun x' y' hxy => ?_⟩
      by_cases e : x' = x ∧ y' = y
      · obtain ⟨rfl, rfl⟩ := e
        simp [hl]
      · have ne : index x y ≠ index x' y' := by unfold index; omega
        rw [List.getElem?_set_ne ne]
        exact h x' y' (by omega)
    obtain ⟨T', h1, h2, h3⟩ := loopN_inv (n := 5) (i := 0) (f := fun y T => aset T (index x y) (get A x y)) (s := T)
      (I := fun k (T : LArr) => T.length = 25 ∧
        ∀ x' y, x' < x ∧ y < 5 ∨ x' = x ∧ y < k → T[index x' y]? = some (some (get A x' y))) step
      ⟨hT, fun x' y hxy => h x' y (by omega) (by omega)⟩
    exact ⟨T', h1, h2, fun x' y a b => h3 x' y (by omega)⟩
  obtain ⟨T', h1, h2, h3⟩ := loopN_inv (n := 5) (i := 0) (f := fun x T => loopN 5 0 (fun y T => aset T (index x y) (get A x y)) T)
    (I := fun x (T : LArr) => T.length = 25 ∧ ∀ x' y, x' < x → y < 5 → T[index x' y]? = some (some (get A x' y)))
    (s := Arr.new 25) (fun x T _ hx h => inner x T (by omega) h.1 h.2) ⟨by simp [Arr.new], fun _ _ h => absurd h (Nat.not_lt_zero _)⟩
  refine h1.trans (congrArg _ ?_)
  apply List.ext_getElem?
  intro i
  by_cases hi : i < 25
  · have e : index (i % 5) (i / 5) = i := by unfold index; omega
    have := h3 (i % 5) (i / 5) (by omega) (by omega)
    rw [e] at this
    rw [this]
    simp [emb, Arr.of, get, e, hi]
  · rw [List.getElem?_eq_none (by omega), List.getElem?_eq_none (by simp [emb]; omega)]

theorem pi_eq (A : Lanes) : pi (emb A) = .ret (emb (KeccakRef.pi A)) := by
  unfold pi
  rw [temp_eq, ret_bind]
  refine forXY_eq (fun x y B _ _ => ?_) A
  rw [aget_emb]
  exact aset_emb _ _ _ _

/-- One row of `chi`. -/
def row (y : Nat) (A : Lanes) : Lanes :=
  let C : List (BitVec 16) := (List.range 5).map fun x => get A x y ^^^ (~~~ get A (x + 1) y &&& get A (x + 2) y)
  (List.range 5).foldl (fun A x => set A x y (C.getD x 0)) A

theorem chiRow_eq (y : Nat) (A : Lanes) (T : LArr) (hT : T.length = 5) :
    ∃ T', chiRow y (emb A) T = .ret (emb (row y A), T') ∧ T'.length = 5 := by
  unfold chiRow row
  rw [fill5 (v := fun x => get A x y ^^^ (~~~ get A (x + 1) y &&& get A (x + 2) y)) (fun x _ => by
    rw [aget_emb, aget_emb, aget_emb]; rfl) _ hT, ret_bind]
  generalize hC : ((List.range 5).map fun x => get A x y ^^^ (~~~ get A (x + 1) y &&& get A (x + 2) y)) = C'
  have lC : C'.length = 5 := by rw [← hC]; simp
  have h2 := loopN_eq (n := 5) (i := 0) emb (f := fun x A => do
      let c ← aget (Arr.of C') x
      aset A (index x y) c) (g := fun x A => set A x y (C'.getD x 0)) (fun x A _ _ => by
        rw [aget_ofD 0 (by omega), ret_bind, aset_emb]) A
  rw [h2, ret_bind]
  exact ⟨Arr.of C', rfl, by simp [lC]⟩

theorem chi_eq (A : Lanes) : chi (emb A) = .ret (emb (KeccakRef.chi A)) := by
  have key : ∀ n i (A : Lanes) (T : LArr), T.length = 5 →
      ∃ T', loopN n i (fun y (r : LArr × LArr) => chiRow y r.1 r.2) (emb A, T) =
        .ret (emb ((List.range' i n).foldl (fun A y => row y A) A), T') := by
    intro n
    induction n with
    | zero => exact fun i A T _ => ⟨T, rfl⟩
    | succ n ih =>
      intro i A T hT
      obtain ⟨T1, h1, hl⟩ := chiRow_eq i A T hT
      obtain ⟨T2, h2⟩ := ih (i + 1) (row i A) T1 hl
      refine ⟨T2, ?_⟩
      rw [loopN]
      dsimp only
      rw [h1, ret_bind, h2, List.range'_succ, List.foldl_cons]
  obtain ⟨T', h⟩ := key 5 0 A (Arr.new 5) (by simp [Arr.new])
  have e : KeccakRef.chi A = (List.range' 0 5).foldl (fun A y => row y A) A := rfl
  rw [chi, h, ret_bind, pure_ret, e]

theorem iota_eq (A : Lanes) (i : Nat) (hi : i < 20) : iota (emb A) i = .ret (emb (KeccakRef.iota A i)) := by
  unfold iota
  rw [aget_emb, aget_ofD 0 (show i < roundConstants.length from hi)]
  exact aset_emb _ _ _ _

theorem round_eq (A : Lanes) (i : Nat) (hi : i < 20) : round i (emb A) = .ret (emb (KeccakRef.round i A)) := by
  unfold round
  rw [theta_eq, ret_bind, rho_eq, ret_bind, pi_eq, ret_bind, chi_eq, ret_bind, iota_eq _ _ hi, KeccakRef.round]

theorem roundLoop_eq (n i : Nat) (A : Lanes) (h : i + n ≤ 20) : loopN n i round (emb A) = .ret (emb (KeccakRef.roundLoop i n A)) := by
  induction n generalizing i A with
  | zero => rfl
  | succ n ih =>
    rw [loopN, round_eq _ _ (by omega), ret_bind, KeccakRef.roundLoop]
    exact ih (i + 1) _ (by omega)

theorem permute_chk (S : List Byte) (n : Nat) (hS : S.length = 50) :
    Chk (fun a b => a = Arr.of b ∧ b.length = 50) (permute (Arr.of S) n) (KeccakRef.permute S n) := by
  unfold permute KeccakRef.permute
  refine .step (areads_of (by omega)) ?_
  have e : (S.drop 0).take 50 = S := by simp [← hS]
  rw [e]
  have lu : ∀ A : Lanes, (KeccakRef.unwords A).length = 50 := by
    intro A
    rw [KeccakRef.unwords, List.length_flatMap]
    show (A.toList.map fun _ => 2).sum = 50
    rw [List.map_const', Vector.length_toList]
    rfl
  have fin : ∀ A : Lanes, Chk (fun a b => a = Arr.of b ∧ b.length = 50)
      (areads (emb A) 0 25 >>= fun ls =>
        awrites (Arr.of S) 0 (ls.flatMap fun (l : BitVec 16) => [l.setWidth 8, (l >>> 8).setWidth 8]))
      (pure (unwords A)) := by
    intro A
    refine .step (areads_of (by simp)) ?_
    have e : (A.toList.drop 0).take 25 = A.toList := by rw [List.drop_zero, List.take_of_length_le (by simp)]
    rw [e]
    show Chk _ (awrites _ 0 (unwords A)) _
    rw [awrites_all (by rw [lu]; simp [hS])]
    exact .ret ⟨rfl, lu A⟩
  by_cases hn : n ≤ 20
  · simp only [if_pos hn]
    have hr := roundLoop_eq n (20 - n) (words S) (by omega)
    rw [emb] at hr
    rw [hr, ret_bind]
    exact fin (roundLoop (20 - n) n (words S))
  · simp only [if_neg hn]
    rw [pure_ret, ret_bind]
    exact fin (words S)

theorem okK128a : Ref.Chk.Ok cfgK128a := ⟨rfl, by decide, by decide, fun S n h => permute_chk S n h⟩
theorem okK128 : Ref.Chk.Ok cfgK128 := ⟨rfl, by decide, by decide, fun S n h => permute_chk S n h⟩

end Model.KeccakRef.Chk
