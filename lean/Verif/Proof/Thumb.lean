import Verif.Spec.AsmCall
/-!
# Reasoning about programs for the Thumb processor
-/

namespace C.Thumb
open Spec

variable {L : Type} {P : Plat} {adr : L → BitVec 32}

/-! ## Straight-line code -/

/-- Straight-line code, on registers and memory only: no instruction that is not a branch depends on the flags. -/
def runL (P : Plat) (adr : L → BitVec 32) : List (Ins L) → (Reg → BitVec 32) → (BitVec 32 → Byte) →
    Option ((Reg → BitVec 32) × (BitVec 32 → Byte))
  | [], f, m => some (f, m)
  | i :: is, f, m => (exec1 P adr i ⟨f, m, false, false⟩).bind fun s => runL P adr is s.reg s.mem

theorem exec1_flags (i : Ins L) (f : Reg → BitVec 32) (m : BitVec 32 → Byte) (z c z' c' : Bool) :
    (exec1 P adr i ⟨f, m, z, c⟩).map (fun s => (s.reg, s.mem)) = (exec1 P adr i ⟨f, m, z', c'⟩).map fun s => (s.reg, s.mem) := by
  cases i <;> simp only [exec1, Option.map_some, Option.map_none] <;> split <;> rfl

theorem runL_cons (i : Ins L) (is : List (Ins L)) (f : Reg → BitVec 32) (m : BitVec 32 → Byte) :
    runL P adr (i :: is) f m = (exec1 P adr i ⟨f, m, false, false⟩).bind fun s => runL P adr is s.reg s.mem := rfl

section
variable [DecidableEq L] {prog : List (Item L)}

theorem step_ins {i : Ins L} {s s' : Mach} (h : exec1 P adr i s = some s') (r : List (Item L)) :
    step P adr prog (.run (.ins i :: r) s) = .run r s' := by
  cases i <;> first
    | (simp only [step, h]; done)
    | (simp only [exec1] at h; cases h; done)

/-- Reachability. -/
def Reaches (P : Plat) (adr : L → BitVec 32) (prog : List (Item L)) (a b : Cfg L) : Prop := ∃ n, steps P adr prog n a = b

theorem steps_add (n k : Nat) (a : Cfg L) : steps P adr prog (n + k) a = steps P adr prog k (steps P adr prog n a) := by
  induction n generalizing a with
  | zero => rw [Nat.zero_add]; rfl
  | succ n ih => rw [Nat.add_right_comm]; exact ih _

theorem Reaches.refl (a : Cfg L) : Reaches P adr prog a a := ⟨0, rfl⟩

theorem Reaches.trans {a b c : Cfg L} (h : Reaches P adr prog a b) (k : Reaches P adr prog b c) : Reaches P adr prog a c := by
  obtain ⟨n, hn⟩ := h
  obtain ⟨k, hk⟩ := k
  exact ⟨n + k, by rw [steps_add, hn, hk]⟩

theorem Reaches.one {a b : Cfg L} (h : step P adr prog a = b) : Reaches P adr prog a b := ⟨1, h⟩

theorem Reaches.step {a c : Cfg L} (h : Reaches P adr prog (step P adr prog a) c) : Reaches P adr prog a c :=
  (Reaches.one rfl).trans h

/-- Straight-line code. -/
theorem reaches_block {is : List (Ins L)} {f f' : Reg → BitVec 32} {m m' : BitVec 32 → Byte} (h : runL P adr is f m = some (f', m'))
    (z c : Bool) (r : List (Item L)) :
    ∃ z' c', Reaches P adr prog (.run (is.map .ins ++ r) ⟨f, m, z, c⟩) (.run r ⟨f', m', z', c'⟩) := by
  induction is generalizing f m z c with
  | nil => cases h; exact ⟨z, c, .refl _⟩
  | cons i is ih =>
    unfold runL at h
    have hf := exec1_flags (P := P) (adr := adr) i f m z c false false
    cases h1 : exec1 P adr i ⟨f, m, false, false⟩ with
    | none => rw [h1] at h; cases h
    | some s =>
      rw [h1] at h hf
      cases h2 : exec1 P adr i ⟨f, m, z, c⟩ with
      | none => rw [h2] at hf; cases hf
      | some s' =>
        rw [h2] at hf
        simp only [Option.map_some, Option.some.injEq, Prod.mk.injEq] at hf
        obtain ⟨f1, m1, z1, c1⟩ := s'
        obtain ⟨hf1, hf2⟩ := hf
        simp only at hf1 hf2
        subst hf1 hf2
        obtain ⟨z', c', hr⟩ := ih h z1 c1
        exact ⟨z', c', (Reaches.one (step_ins h2 _)).trans hr⟩

theorem target_map (is : List (Ins L)) (r : List (Item L)) (l : L) : target (is.map .ins ++ r) l = target r l := by
  induction is with
  | nil => rfl
  | cons i is ih => exact ih

end

theorem runL_append (a b : List (Ins L)) (f : Reg → BitVec 32) (m : BitVec 32 → Byte) :
    runL P adr (a ++ b) f m = (runL P adr a f m).bind fun s => runL P adr b s.1 s.2 := by
  induction a generalizing f m with
  | nil => rfl
  | cons i a ih =>
    rw [List.cons_append, runL_cons, runL_cons]
    cases exec1 P adr i ⟨f, m, false, false⟩ with
    | none => rfl
    | some s => exact ih _ _

theorem runL_trans {a b : List (Ins L)} {f f1 : Reg → BitVec 32} {m m1 : BitVec 32 → Byte} {x}
    (h : runL P adr a f m = some (f1, m1)) (k : runL P adr b f1 m1 = x) : runL P adr (a ++ b) f m = x := by
  rw [runL_append, h, ← k]; rfl

section
variable (f : Reg → BitVec 32) (m : BitVec 32 → Byte) (is : List (Ins L)) (s : Bool)

theorem set_apply (d : Reg) (v : BitVec 32) (r : Reg) : set f d v r = if r = d then v else f r := rfl

theorem runL_nil : runL P adr [] f m = some (f, m) := (rfl)
theorem runL_log (op : Op) (d a : Reg) (b : Opd) :
    runL P adr (.log op s d a b :: is) f m = runL P adr is (set f d (op.val (f a) (b.val f))) m := (rfl)
theorem runL_mov (d : Reg) (b : Opd) : runL P adr (.mov s d b :: is) f m = runL P adr is (set f d (b.val f)) m := (rfl)
theorem runL_lsl (d a : Reg) (n : Nat) : runL P adr (.lsl s d a n :: is) f m = runL P adr is (set f d (f a <<< n)) m := (rfl)
theorem runL_lsr (d a : Reg) (n : Nat) : runL P adr (.lsr s d a n :: is) f m = runL P adr is (set f d (f a >>> n)) m := (rfl)
theorem runL_ror (d a b : Reg) :
    runL P adr (.ror d a b :: is) f m = runL P adr is (set f d ((f a).rotateRight ((f b).toNat % 256))) m := (rfl)
theorem rotateRight_zero (x : BitVec 32) : x.rotateRight 0 = x := by
  apply BitVec.eq_of_getLsbD_eq
  intro i hi
  rw [BitVec.getLsbD_rotateRight]
  simp [hi]

theorem runL_uxth0 (d a : Reg) :
    runL P adr (.uxth d a 0 :: is) f m = runL P adr is (set f d (((f a).setWidth 16).setWidth 32)) m := by
  rw [runL_cons, exec1, rotateRight_zero]; rfl
theorem runL_uxth (d a : Reg) (n : Nat) :
    runL P adr (.uxth d a n :: is) f m = runL P adr is (set f d ((((f a).rotateRight n).setWidth 16).setWidth 32)) m := (rfl)
theorem runL_sxth (d a : Reg) :
    runL P adr (.sxth d a :: is) f m = runL P adr is (set f d (((f a).setWidth 16).signExtend 32)) m := (rfl)
theorem runL_rev16 (d a : Reg) : runL P adr (.rev16 d a :: is) f m = runL P adr is (set f d (rev16 (f a))) m := (rfl)
theorem runL_bfi16 (d a : Reg) :
    runL P adr (.bfi16 d a :: is) f m = runL P adr is (set f d ((f a).setWidth 16 ++ (f d).setWidth 16)) m := (rfl)
theorem runL_add (d a : Reg) (b : Opd) :
    runL P adr (.add s d a b :: is) f m = runL P adr is (set f d (f a + b.val f)) m := (rfl)
theorem runL_sub (d a : Reg) (b : Opd) :
    runL P adr (.sub s d a b :: is) f m = runL P adr is (set f d (f a - b.val f)) m := (rfl)
theorem runL_cmp (a : Reg) (b : Opd) : runL P adr (.cmp a b :: is) f m = runL P adr is f m := (rfl)
theorem runL_adr (d : Reg) (l : L) : runL P adr (.adr d l :: is) f m = runL P adr is (set f d (adr l)) m := (rfl)

variable {f m is}

theorem runL_ldrh {t n : Reg} {o : Nat} {a : BitVec 32} (ha : f n + BitVec.ofNat 32 o = a) (hr : may P.rd a 2 = true)
    (hl : aligned P.strict a 2 = true) :
    runL P adr (.ldrh t n o :: is) f m = runL P adr is (set f t ((get16 m a).setWidth 32)) m := by
  subst ha
  rw [runL_cons, exec1]
  simp only [hr, hl, Bool.and_true, if_true, Option.bind_some]

theorem runL_ldr {t n : Reg} {o : Nat} {a : BitVec 32} (ha : f n + BitVec.ofNat 32 o = a) (hr : may P.rd a 4 = true)
    (hl : aligned P.strict a 4 = true) :
    runL P adr (.ldr t n o :: is) f m = runL P adr is (set f t (get32 m a)) m := by
  subst ha
  rw [runL_cons, exec1]
  simp only [hr, hl, Bool.and_true, if_true, Option.bind_some]

theorem runL_ldrhPost {t n : Reg} {o : Nat} {a : BitVec 32} (ha : f n = a) (hr : may P.rd a 2 = true)
    (hl : aligned P.strict a 2 = true) :
    runL P adr (.ldrhPost t n o :: is) f m =
      runL P adr is (set (set f n (a + BitVec.ofNat 32 o)) t ((get16 m a).setWidth 32)) m := by
  subst ha
  rw [runL_cons, exec1]
  simp only [hr, hl, Bool.and_true, if_true, Option.bind_some]

theorem runL_strh {t n : Reg} {o : Nat} {a : BitVec 32} (ha : f n + BitVec.ofNat 32 o = a) (hr : may P.wr a 2 = true)
    (hl : aligned P.strict a 2 = true) :
    runL P adr (.strh t n o :: is) f m = runL P adr is f (put16 m a ((f t).setWidth 16)) := by
  subst ha
  rw [runL_cons, exec1]
  simp only [hr, hl, Bool.and_true, if_true, Option.bind_some]

theorem runL_ldm {n : Reg} {rs : List Reg} {a : BitVec 32} (ha : f n = a) (hr : may P.rd a (4 * rs.length) = true)
    (hl : aligned true a 4 = true) :
    runL P adr (.ldm n rs :: is) f m = runL P adr is (set (loadRegs m a rs f) n (a + BitVec.ofNat 32 (4 * rs.length))) m := by
  subst ha
  rw [runL_cons, exec1]
  simp only [hr, hl, Bool.and_true, if_true, Option.bind_some]

theorem runL_stm {n : Reg} {rs : List Reg} {a : BitVec 32} (ha : f n = a) (hr : may P.wr a (4 * rs.length) = true)
    (hl : aligned true a 4 = true) :
    runL P adr (.stm n rs :: is) f m = runL P adr is (set f n (a + BitVec.ofNat 32 (4 * rs.length))) (storeRegs f a rs m) := by
  subst ha
  rw [runL_cons, exec1]
  simp only [hr, hl, Bool.and_true, if_true, Option.bind_some]

theorem runL_push {rs : List Reg} {a : BitVec 32} (ha : f .sp - BitVec.ofNat 32 (4 * rs.length) = a)
    (hr : may P.wr a (4 * rs.length) = true) (hl : aligned true a 4 = true) :
    runL P adr (.push rs :: is) f m = runL P adr is (set f .sp a) (storeRegs f a rs m) := by
  subst ha
  rw [runL_cons, exec1]
  simp only [hr, hl, Bool.and_true, if_true, Option.bind_some]

theorem runL_pop {rs : List Reg} {a : BitVec 32} (ha : f .sp = a) (hr : may P.rd a (4 * rs.length) = true)
    (hl : aligned true a 4 = true) :
    runL P adr (.pop rs :: is) f m =
      runL P adr is (set (loadRegs m a rs f) .sp (a + BitVec.ofNat 32 (4 * rs.length))) m := by
  subst ha
  rw [runL_cons, exec1]
  simp only [hr, hl, Bool.and_true, if_true, Option.bind_some]

end

/-! ## Memory -/

theorem Sep.symm {p q : BitVec 32} {n k : Nat} (h : Sep p n q k) : Sep q k p n := fun a h1 h2 => h a h2 h1

theorem ofNat_inj {i j : Nat} (hi : i < 2 ^ 32) (hj : j < 2 ^ 32) : BitVec.ofNat 32 i = BitVec.ofNat 32 j ↔ i = j := by
  constructor
  · intro h
    have := congrArg BitVec.toNat h
    rwa [BitVec.toNat_ofNat, BitVec.toNat_ofNat, Nat.mod_eq_of_lt hi, Nat.mod_eq_of_lt hj] at this
  · rintro rfl; rfl

theorem add_inj {p : BitVec 32} {i j : Nat} (hi : i < 2 ^ 32) (hj : j < 2 ^ 32) :
    p + BitVec.ofNat 32 i = p + BitVec.ofNat 32 j ↔ i = j := by
  rw [BitVec.add_right_inj, ofNat_inj hi hj]

theorem add_add (p : BitVec 32) (i j : Nat) : p + BitVec.ofNat 32 i + BitVec.ofNat 32 j = p + BitVec.ofNat 32 (i + j) := by
  rw [BitVec.add_assoc, ← BitVec.ofNat_add]

theorem in_add {p : BitVec 32} {n k i : Nat} (h : i + k ≤ n) {a : BitVec 32} (ha : In (p + BitVec.ofNat 32 i) k a) : In p n a := by
  obtain ⟨j, hj, rfl⟩ := ha
  exact ⟨i + j, by omega, add_add _ _ _⟩

theorem sep_sub {p q : BitVec 32} {n k i j n' k' : Nat} (h : Sep p n q k) (hi : i + n' ≤ n) (hj : j + k' ≤ k) :
    Sep (p + BitVec.ofNat 32 i) n' (q + BitVec.ofNat 32 j) k' := fun a h1 h2 => h a (in_add hi h1) (in_add hj h2)

/-- Different parts of one area. -/
theorem sep_offsets (p : BitVec 32) {i n j k : Nat} (h : i + n ≤ j ∨ j + k ≤ i) (h1 : i + n ≤ 2 ^ 32) (h2 : j + k ≤ 2 ^ 32) :
    Sep (p + BitVec.ofNat 32 i) n (p + BitVec.ofNat 32 j) k := by
  rintro a ⟨x, hx, rfl⟩ ⟨y, hy, e⟩
  rw [add_add, add_add, add_inj (by omega) (by omega)] at e
  omega

theorem Only.refl (R : BitVec 32 → Prop) (m : BitVec 32 → Byte) : Only R m m := fun _ _ => rfl

theorem Only.trans {R : BitVec 32 → Prop} {a b c : BitVec 32 → Byte} (h : Only R a b) (k : Only R b c) : Only R a c :=
  fun x hx => (k x hx).trans (h x hx)

theorem Only.mono {R R' : BitVec 32 → Prop} {a b : BitVec 32 → Byte} (h : Only R a b) (k : ∀ x, R x → R' x) : Only R' a b :=
  fun x hx => h x fun hr => hx (k x hr)

theorem only_put8 (m : BitVec 32 → Byte) (a : BitVec 32) (v : Byte) : Only (In a 1) m (put8 m a v) := by
  intro x hx
  refine if_neg fun e => hx ⟨0, by decide, ?_⟩
  rw [e]; exact (BitVec.add_zero a).symm

theorem only_put16 (m : BitVec 32 → Byte) (a : BitVec 32) (v : BitVec 16) : Only (In a 2) m (put16 m a v) := by
  intro x hx
  refine ((if_neg fun e => hx ⟨1, by decide, e⟩).trans (if_neg fun e => hx ⟨0, by decide, ?_⟩))
  rw [e]; exact (BitVec.add_zero a).symm

theorem only_put32 (m : BitVec 32 → Byte) (a : BitVec 32) (v : BitVec 32) : Only (In a 4) m (put32 m a v) := by
  have h2 : ∀ x, In (a + 2) 2 x → In a 4 x := fun x h => in_add (i := 2) (by decide) h
  have h0 : ∀ x, In a 2 x → In a 4 x := fun x ⟨i, hi, e⟩ => ⟨i, by omega, e⟩
  exact ((only_put16 _ _ _).mono h0).trans ((only_put16 _ _ _).mono h2)

theorem get8_put8 (m : BitVec 32 → Byte) (a : BitVec 32) (v : Byte) : put8 m a v a = v := if_pos rfl

theorem byte_append (v : BitVec 16) : ((v >>> 8).setWidth 8 ++ v.setWidth 8 : BitVec 16) = v := by
  apply BitVec.eq_of_getLsbD_eq
  intro i hi
  rw [BitVec.getLsbD_append]
  by_cases h : i < 8
  · simp [h]
  · simp only [h, if_false, BitVec.getLsbD_setWidth, BitVec.getLsbD_ushiftRight]
    rw [Nat.add_sub_cancel' (by omega)]
    simp [show i - 8 < 8 by omega]

theorem half_append (v : BitVec 32) : ((v >>> 16).setWidth 16 ++ v.setWidth 16 : BitVec 32) = v := by
  apply BitVec.eq_of_getLsbD_eq
  intro i hi
  rw [BitVec.getLsbD_append]
  by_cases h : i < 16
  · simp [h]
  · simp only [h, if_false, BitVec.getLsbD_setWidth, BitVec.getLsbD_ushiftRight]
    rw [Nat.add_sub_cancel' (by omega)]
    simp [show i - 16 < 16 by omega]

theorem add_one_ne (a : BitVec 32) : a ≠ a + 1 := by
  intro e
  have := (add_inj (p := a) (i := 0) (j := 1) (by decide) (by decide)).1 ((BitVec.add_zero a).trans e)
  omega

theorem get16_put16 (m : BitVec 32 → Byte) (a : BitVec 32) (v : BitVec 16) : get16 (put16 m a v) a = v := by
  unfold get16 put16
  rw [get8_put8]
  have : put8 (put8 m a (v.setWidth 8)) (a + 1) ((v >>> 8).setWidth 8) a = v.setWidth 8 :=
    (if_neg (add_one_ne a)).trans (if_pos rfl)
  rw [this, byte_append]

/-- Half-words depend on their bytes only. -/
theorem get16_congr {m m' : BitVec 32 → Byte} {a : BitVec 32} (h : ∀ x, In a 2 x → m' x = m x) : get16 m' a = get16 m a := by
  unfold get16
  rw [h (a + 1) ⟨1, by decide, rfl⟩, h a ⟨0, by decide, (BitVec.add_zero a).symm⟩]

theorem get32_congr {m m' : BitVec 32 → Byte} {a : BitVec 32} (h : ∀ x, In a 4 x → m' x = m x) : get32 m' a = get32 m a := by
  unfold get32
  rw [get16_congr (a := a + 2) fun x hx => h x (in_add (i := 2) (by decide) hx),
    get16_congr (a := a) fun x ⟨i, hi, e⟩ => h x ⟨i, by omega, e⟩]

theorem get16_only {R : BitVec 32 → Prop} {m m' : BitVec 32 → Byte} {a : BitVec 32} (h : Only R m m') (k : ∀ x, In a 2 x → ¬ R x) :
    get16 m' a = get16 m a := get16_congr fun x hx => h x (k x hx)

theorem get32_only {R : BitVec 32 → Prop} {m m' : BitVec 32 → Byte} {a : BitVec 32} (h : Only R m m') (k : ∀ x, In a 4 x → ¬ R x) :
    get32 m' a = get32 m a := get32_congr fun x hx => h x (k x hx)

theorem get32_put32 (m : BitVec 32 → Byte) (a : BitVec 32) (v : BitVec 32) : get32 (put32 m a v) a = v := by
  unfold get32 put32
  rw [get16_put16, get16_only (only_put16 _ _ _), get16_put16, half_append]
  have := sep_offsets a (i := 0) (n := 2) (j := 2) (k := 2) (.inl (by decide)) (by decide) (by decide)
  rw [show a + BitVec.ofNat 32 0 = a from BitVec.add_zero a] at this
  exact this

/-! ## Alignment and permissions -/

theorem may_intro {ok : BitVec 32 → Bool} {p : BitVec 32} {n : Nat} (h : ∀ a, In p n a → ok a = true) : may ok p n = true := by
  unfold may
  rw [List.all_eq_true]
  intro i hi
  exact h _ ⟨i, List.mem_range.1 hi, rfl⟩

theorem may_sub {ok : BitVec 32 → Bool} {p : BitVec 32} {n : Nat} (h : ∀ a, In p n a → ok a = true) {i k : Nat} (hk : i + k ≤ n) :
    may ok (p + BitVec.ofNat 32 i) k = true := may_intro fun a ha => h a (in_add hk ha)

theorem toNat_add_mod (p : BitVec 32) (i n : Nat) (hn : n = 2 ∨ n = 4) :
    (p + BitVec.ofNat 32 i).toNat % n = (p.toNat + i) % n := by
  rw [BitVec.toNat_add, BitVec.toNat_ofNat]
  rcases hn with rfl | rfl <;> omega

theorem aligned2 {p : BitVec 32} (h : p.toNat % 2 = 0) (s : Bool) {i : Nat} (hi : i % 2 = 0) :
    aligned s (p + BitVec.ofNat 32 i) 2 = true := by
  unfold aligned
  rw [toNat_add_mod _ _ _ (.inl rfl), show (p.toNat + i) % 2 = 0 by omega]
  simp

theorem aligned4 {p : BitVec 32} (h : p.toNat % 4 = 0) (s : Bool) {i : Nat} (hi : i % 4 = 0) :
    aligned s (p + BitVec.ofNat 32 i) 4 = true := by
  unfold aligned
  rw [toNat_add_mod _ _ _ (.inr rfl), show (p.toNat + i) % 4 = 0 by omega]
  simp

/-! ## Lanes -/

/-- The 25 lanes at an address. -/
def lanes (m : BitVec 32 → Byte) (p : BitVec 32) : Vector (BitVec 16) 25 :=
  Vector.ofFn fun i => get16 m (p + BitVec.ofNat 32 (i.val * 2))

theorem lanes_get (m : BitVec 32 → Byte) (p : BitVec 32) {i : Nat} (h : i < 25) :
    (lanes m p)[i] = get16 m (p + BitVec.ofNat 32 (i * 2)) := by simp [lanes]

theorem lanes_only {R : BitVec 32 → Prop} {m m' : BitVec 32 → Byte} {p : BitVec 32} (h : Only R m m')
    (k : ∀ x, In p 50 x → ¬ R x) : lanes m' p = lanes m p := by
  apply Vector.ext
  intro i hi
  rw [lanes_get _ _ hi, lanes_get _ _ hi]
  exact get16_only h fun x hx => k x (in_add (by omega) hx)

theorem lanes_put16 (m : BitVec 32 → Byte) (p : BitVec 32) {i : Nat} (h : i < 25) (v : BitVec 16) :
    lanes (put16 m (p + BitVec.ofNat 32 (i * 2)) v) p = (lanes m p).set i v := by
  apply Vector.ext
  intro j hj
  rw [lanes_get _ _ hj, Vector.getElem_set, lanes_get _ _ hj]
  by_cases e : i = j
  · subst e
    rw [if_pos rfl, get16_put16]
  · rw [if_neg e]
    exact get16_only (only_put16 _ _ _) (sep_offsets p (by omega) (by omega) (by omega))

/-! ## Several registers -/

theorem in_mono {p : BitVec 32} {n k : Nat} (h : n ≤ k) {a : BitVec 32} (ha : In p n a) : In p k a := by
  obtain ⟨i, hi, e⟩ := ha
  exact ⟨i, by omega, e⟩

theorem add_four (a : BitVec 32) : a + 4 = a + BitVec.ofNat 32 4 := rfl

theorem only_storeRegs (f : Reg → BitVec 32) (rs : List Reg) : ∀ (a : BitVec 32) (m : BitVec 32 → Byte),
    Only (In a (4 * rs.length)) m (storeRegs f a rs m) := by
  induction rs with
  | nil => intro a m; exact Only.refl _ _
  | cons r rs ih =>
    intro a m
    rw [storeRegs, List.length_cons]
    exact ((only_put32 _ _ _).mono fun x h => in_mono (by omega) h).trans
      ((ih _ _).mono fun x h => in_add (i := 4) (by omega) h)

theorem get32_storeRegs (f : Reg → BitVec 32) (rs : List Reg) : ∀ (a : BitVec 32) (m : BitVec 32 → Byte) (k : Nat) (h : k < rs.length),
    4 * rs.length ≤ 2 ^ 32 → get32 (storeRegs f a rs m) (a + BitVec.ofNat 32 (4 * k)) = f rs[k] := by
  induction rs with
  | nil => intro a m k h; cases h
  | cons r rs ih =>
    intro a m k h hl
    rw [List.length_cons] at h hl
    rw [storeRegs]
    cases k with
    | zero =>
      rw [get32_only (only_storeRegs _ _ _ _)]
      · rw [show a + BitVec.ofNat 32 (4 * 0) = a from BitVec.add_zero a, get32_put32]; rfl
      · exact sep_offsets a (i := 4 * 0) (n := 4) (j := 4) (.inl (by decide)) (by decide) (by omega)
    | succ k =>
      rw [show 4 * (k + 1) = 4 + 4 * k by omega, ← add_add]
      exact ih (a + 4) _ k (by omega) (by omega)

/-- The low half of a word. -/
theorem get16_low (m : BitVec 32 → Byte) (a : BitVec 32) : get16 m a = (get32 m a).setWidth 16 := by
  unfold get32
  apply BitVec.eq_of_getLsbD_eq
  intro i hi
  rw [BitVec.getLsbD_setWidth, BitVec.getLsbD_append]
  simp [hi]

/-- The high half of a word. -/
theorem get16_high (m : BitVec 32 → Byte) (a : BitVec 32) : get16 m (a + 2) = (get32 m a >>> 16).setWidth 16 := by
  unfold get32
  apply BitVec.eq_of_getLsbD_eq
  intro i hi
  rw [BitVec.getLsbD_setWidth, BitVec.getLsbD_ushiftRight, BitVec.getLsbD_append]
  simp [hi]

/-- States of which the words agree. -/
theorem lanes_ext {m m' : BitVec 32 → Byte} {p q : BitVec 32}
    (h : ∀ k < 12, get32 m' (q + BitVec.ofNat 32 (4 * k)) = get32 m (p + BitVec.ofNat 32 (4 * k)))
    (h24 : get16 m' (q + BitVec.ofNat 32 48) = get16 m (p + BitVec.ofNat 32 48)) : lanes m' q = lanes m p := by
  apply Vector.ext
  intro i hi
  rw [lanes_get _ _ hi, lanes_get _ _ hi]
  by_cases h1 : i = 24
  · subst h1; exact h24
  · have hk := h (i / 2) (by omega)
    rcases Nat.mod_two_eq_zero_or_one i with h2 | h2
    · rw [show i * 2 = 4 * (i / 2) by omega, get16_low, hk, ← get16_low]
    · rw [show i * 2 = 4 * (i / 2) + 2 by omega, ← add_add, ← add_add]
      exact (get16_high m' _).trans (((congrArg (fun x : BitVec 32 => (x >>> 16).setWidth 16) hk)).trans (get16_high m _).symm)

theorem aligned4' {p : BitVec 32} (h : p.toNat % 4 = 0) (i : Nat) (hi : i % 4 = 0) (s : Bool) :
    aligned s (p + BitVec.ofNat 32 i) 4 = true := by
  have : (p + BitVec.ofNat 32 i).toNat % 4 = 0 := by
    rw [BitVec.toNat_add, BitVec.toNat_ofNat]
    omega
  simp only [aligned, this, beq_self_eq_true, Bool.or_true]

theorem four_even {x : BitVec 32} (h : x.toNat % 4 = 0) : x.toNat % 2 = 0 := by omega

theorem add_even {x : BitVec 32} (h : x.toNat % 2 = 0) {i : Nat} (hi : i % 2 = 0) : (x + BitVec.ofNat 32 i).toNat % 2 = 0 := by
  rw [BitVec.toNat_add, BitVec.toNat_ofNat]; omega

theorem add_four' {x : BitVec 32} (h : x.toNat % 4 = 0) {i : Nat} (hi : i % 4 = 0) : (x + BitVec.ofNat 32 i).toNat % 4 = 0 := by
  rw [BitVec.toNat_add, BitVec.toNat_ofNat]; omega

theorem add_sub_frame (b : BitVec 32) {i j : Nat} (h : j ≤ i) : b + BitVec.ofNat 32 i - BitVec.ofNat 32 j = b + BitVec.ofNat 32 (i - j) := by
  rw [show b + BitVec.ofNat 32 i = b + BitVec.ofNat 32 (i - j) + BitVec.ofNat 32 j by rw [add_add]; congr 2; omega]
  exact BitVec.add_sub_cancel _ _

/-- The registers at the return. -/
structure Back (F f : Reg → BitVec 32) : Prop where
  r4 : f .r4 = F .r4
  r5 : f .r5 = F .r5
  r6 : f .r6 = F .r6
  r7 : f .r7 = F .r7
  r8 : f .r8 = F .r8
  r9 : f .r9 = F .r9
  r10 : f .r10 = F .r10
  r11 : f .r11 = F .r11
  r12 : f .r12 = F .r12
  sp : f .sp = F .sp

end C.Thumb
