import Verif.Model.Integer
/-!
# The integer expressions are defined and have the values the models give them
-/

namespace Model.Arith
open C C.Arith

theorem forall_byte {p : Byte → Prop} (h : ∀ i : Fin 256, p (BitVec.ofFin i)) (x : Byte) : p x := h x.toFin

theorem foldlM_some {α β} {f : β → α → Option β} {g : β → α → β} : ∀ (l : List α) (b : β),
    (∀ a ∈ l, ∀ b, f b a = some (g b a)) → l.foldlM f b = some (l.foldl g b)
  | [], _, _ => rfl
  | a :: l, b, h => by
    rw [List.foldlM_cons, h a List.mem_cons_self b]
    exact foldlM_some l (g b a) fun a' ha' => h a' (List.mem_cons_of_mem a ha')

theorem foldlM_none {α β} {f : β → α → Option β} : ∀ (l : List α) (b : β) (a : α), a ∈ l → (∀ b, f b a = none) →
    l.foldlM f b = none
  | a' :: l, b, a, h, hf => by
    rw [List.foldlM_cons]
    cases h with
    | head => rw [hf b]; rfl
    | tail _ h =>
      cases f b a' with
      | none => rfl
      | some b' => exact foldlM_none l b' a h hf

variable {P : Platform}

section
variable {ρ : List Val} {a b : Expr} {x y : BitVec 64}

theorem eval_or (h : P.Ok) (ha : eval P ρ a = some (u64 x)) (hb : eval P ρ b = some (u64 y)) :
    eval P ρ (a ||| b) = some (u64 (x ||| y)) := by
  show (eval P ρ a).bind _ = _
  rw [ha]
  show (eval P ρ b).bind _ = _
  rw [hb]
  cases h <;> rfl

theorem eval_xor (h : P.Ok) (ha : eval P ρ a = some (u64 x)) (hb : eval P ρ b = some (u64 y)) :
    eval P ρ (a ^^^ b) = some (u64 (x ^^^ y)) := by
  show (eval P ρ a).bind _ = _
  rw [ha]
  show (eval P ρ b).bind _ = _
  rw [hb]
  cases h <;> rfl

theorem assign64 (h : eval P ρ a = some (u64 x)) : assign P .u64 ρ a = some x := by
  show (eval P ρ a).map _ = _
  rw [h]
  rfl
end

/-! ## 64-bit words -/

theorem rotr_ok (h : P.Ok) (x : BitVec 64) : ∀ n ∈ [19, 28, 61, 39, 1, 6, 10, 17, 7, 41, 8, 24, 40, 56],
    rotr P x n = some (AsconRef.rotr x n) := by
  intro n hn
  simp only [List.mem_cons, List.not_mem_nil, or_false] at hn
  cases h <;> rcases hn with (rfl|rfl|rfl|rfl|rfl|rfl|rfl|rfl|rfl|rfl|rfl|rfl|rfl|rfl) <;> rfl

theorem u64big_ok (h : P.Ok) (x : BitVec 64) : u64big P x = some (Opt.u64big x) := by
  apply assign64
  repeat' apply eval_or h
  all_goals cases h <;> rfl

theorem u64bigRot_ok (h : P.Ok) (x : BitVec 64) : u64bigRot P x = some (A128.Opt64.u64big x) := by
  unfold u64bigRot
  rw [rotr_ok h x 8 (by decide), rotr_ok h x 24 (by decide), rotr_ok h x 40 (by decide), rotr_ok h x 56 (by decide)]
  rfl

theorem interleave8_ok (h : P.Ok) (x : BitVec 64) : interleave8 P x = some (Opt.Bi8.interleave8 x) := by
  unfold interleave8
  rw [assign64 (x := Opt.Bi8.il1 x)]
  · show (assign P .u64 [u64 (Opt.Bi8.il1 x)] _).bind _ = _
    rw [assign64 (x := Opt.Bi8.il2 (Opt.Bi8.il1 x))]
    · show assign P .u64 [u64 (Opt.Bi8.il2 (Opt.Bi8.il1 x))] _ = _
      rw [assign64 (x := Opt.Bi8.il3 (Opt.Bi8.il2 (Opt.Bi8.il1 x)))]
      · rfl
      · repeat' apply eval_or h
        all_goals cases h <;> rfl
    · repeat' apply eval_or h
      all_goals cases h <;> rfl
  · repeat' apply eval_or h
    all_goals cases h <;> rfl

theorem diffuse_ok (h : P.Ok) (x : BitVec 64) : ∀ q ∈ [(19, 45, 28, 36), (61, 3, 39, 25), (1, 63, 6, 58), (10, 54, 17, 47), (7, 57, 41, 23)],
    diffuse P x q.1 q.2.1 q.2.2.1 q.2.2.2 =
      some (x ^^^ ((x >>> q.1) ^^^ (x <<< q.2.1) ^^^ (x >>> q.2.2.1) ^^^ (x <<< q.2.2.2))) := by
  intro q hq
  unfold diffuse
  rw [assign64 (x := (x >>> q.1) ^^^ (x <<< q.2.1) ^^^ (x >>> q.2.2.1) ^^^ (x <<< q.2.2.2))]
  · rfl
  · simp only [List.mem_cons, List.not_mem_nil, or_false] at hq
    repeat' apply eval_xor h
    all_goals cases h <;> rcases hq with (rfl|rfl|rfl|rfl|rfl) <;> rfl

theorem round32_ok (h : P.Ok) (s : Opt.State) (c : Byte) : round32 P s c = some (Opt.Opt32.round s c) := by
  unfold round32
  have d := fun x q hq => diffuse_ok h x q hq
  have d0 := fun x => d x (19, 45, 28, 36) (by decide)
  have d1 := fun x => d x (61, 3, 39, 25) (by decide)
  have d2 := fun x => d x (1, 63, 6, 58) (by decide)
  have d3 := fun x => d x (10, 54, 17, 47) (by decide)
  have d4 := fun x => d x (7, 57, 41, 23) (by decide)
  simp only [] at d0 d1 d2 d3 d4
  simp only [d0, d1, d2, d3, d4]
  rfl

theorem ror64_ok (h : P.Ok) (x : BitVec 64) : ∀ n ∈ amounts, ror64 P x n = some (Opt.Opt64.ror x n) := by
  intro n hn
  simp only [amounts, List.mem_cons, List.not_mem_nil, or_false] at hn
  cases h <;> rcases hn with (rfl|rfl|rfl|rfl|rfl|rfl|rfl|rfl|rfl|rfl) <;> rfl

theorem rorBi32_ok (h : P.Ok) (x : BitVec 64) : ∀ n ∈ amounts, rorBi32 P x n = some (Opt.Bi32.ror x n) := by
  intro n hn
  simp only [amounts, List.mem_cons, List.not_mem_nil, or_false] at hn
  cases h <;> rcases hn with (rfl|rfl|rfl|rfl|rfl|rfl|rfl|rfl|rfl|rfl) <;> rfl

theorem roundWith_ok {f : BitVec 64 → Nat → Option (BitVec 64)} {g : BitVec 64 → Nat → BitVec 64}
    (h : ∀ x, ∀ n ∈ amounts, f x n = some (g x n)) (s : Opt.State) (c : BitVec 64) :
    roundWith f s c = some (Opt.Opt64.roundWith g s c) := by
  unfold roundWith
  simp only [h _ (6 - 1) (by decide), h _ (17 - 10) (by decide), h _ (41 - 7) (by decide), h _ (28 - 19) (by decide),
    h _ (61 - 39) (by decide), h _ 1 (by decide), h _ 10 (by decide), h _ 19 (by decide), h _ 39 (by decide)]
  rfl

theorem refRound_ok (h : P.Ok) {i : Nat} (hi : i < 12) (s : Opt.State) : refRound P i s = some (AsconRef.round i s) := by
  have hc : roundConstant P i = some (((0xf - BitVec.ofNat 64 i) <<< 4) ||| BitVec.ofNat 64 i) := by
    have : ∀ i < 12, roundConstant P i = some (((0xf - BitVec.ofNat 64 i) <<< 4) ||| BitVec.ofNat 64 i) := by
      cases h <;> decide +kernel
    exact this i hi
  obtain ⟨x0, x1, x2, x3, x4⟩ := s
  unfold refRound
  simp only [hc, rotr_ok h _ 19 (by decide), rotr_ok h _ 28 (by decide), rotr_ok h _ 61 (by decide), rotr_ok h _ 39 (by decide),
    rotr_ok h _ 1 (by decide), rotr_ok h _ 6 (by decide), rotr_ok h _ 10 (by decide), rotr_ok h _ 17 (by decide),
    rotr_ok h _ 7 (by decide), rotr_ok h _ 41 (by decide)]
  rfl

/-! ## Bytes -/

theorem ror8_ok (hP : P.Ok) (h : P.int = 32) : ∀ n : Fin 8, ∀ a : Fin 256,
    ror8 P (BitVec.ofFin a) (intVal P n.1) = some (Opt.Bi8.ror8 (BitVec.ofFin a) n.1) := by
  cases hP with
  | avr => cases h
  | _ => decide +kernel

/-- With a 16-bit `int` the shift by 8 is undefined for bytes from 0x80. -/
theorem ror8_avr : ∀ n : Fin 8, ∀ a : Fin 256, ror8 ⟨16, 32, 16⟩ (BitVec.ofFin a) (intVal ⟨16, 32, 16⟩ n.1) =
    if n.1 = 0 ∧ 128 ≤ a.1 then none else some (Opt.Bi8.ror8 (BitVec.ofFin a) n.1) := by
  decide +kernel

theorem rorByte_eq (hP : P.Ok) (x b : BitVec 64) : ∀ n ∈ amounts, ∀ j ∈ List.range 8,
    (n + j) >>> 3 < 8 ∧ rorByte P x n j b =
      (ror8 P (Opt.byteOf x ((n + j) &&& 7)) (intVal P ((n + j) >>> 3))).map (Opt.Opt8.setByte b j) := by
  have key : ∀ n ∈ amounts, ∀ j ∈ List.range 8, (n + j) >>> 3 < 8 ∧
    (eval P [intVal P n] ((Expr.var 0 + Expr.dec j) &&& Expr.hex 0x7)).map (·.b.toNat) = some ((n + j) &&& 7) ∧
    (eval P [intVal P n] ((Expr.var 0 + Expr.dec j) >>> (3 : Expr))).bind (castTo P .int) =
      some (intVal P ((n + j) >>> 3)) := by
    cases hP <;> decide +kernel
  intro n hn j hj
  obtain ⟨h1, h2, h3⟩ := key n hn j hj
  refine ⟨h1, ?_⟩
  obtain ⟨k, hk, hk'⟩ := Option.map_eq_some_iff.mp h2
  obtain ⟨m, hm, hm'⟩ := Option.bind_eq_some_iff.mp h3
  unfold rorByte
  simp only [bind, hk, hm, hm', hk', Option.bind_some]
  cases ror8 P (Opt.byteOf x (n + j &&& 7)) (intVal P ((n + j) >>> 3)) <;> rfl

theorem rorBi8_ok (hP : P.Ok) (h : P.int = 32) (x : BitVec 64) : ∀ n ∈ amounts, rorBi8 P x n = some (Opt.Bi8.ror x n) := by
  intro n hn
  refine foldlM_some _ _ fun j hj b => ?_
  obtain ⟨h1, h2⟩ := rorByte_eq hP x b n hn j hj
  rw [h2, show ror8 P (Opt.byteOf x ((n + j) &&& 7)) (intVal P ((n + j) >>> 3)) = _ from
    ror8_ok hP h ⟨_, h1⟩ (Opt.byteOf x ((n + j) &&& 7)).toFin]
  rfl

theorem roundBi8_ok (hP : P.Ok) (h : P.int = 32) (s : Opt.State) (c : BitVec 64) : roundBi8 P s c = some (Opt.Bi8.round s c) := by
  unfold roundBi8
  have h := rorBi8_ok hP h
  simp only [h _ (6 - 1) (by decide), h _ (17 - 10) (by decide), h _ (41 - 7) (by decide), h _ (28 - 19) (by decide),
    h _ (61 - 39) (by decide), h _ 1 (by decide), h _ 10 (by decide), h _ 19 (by decide), h _ 39 (by decide)]
  rfl

theorem product_ok (hP : P.Ok) : ∀ n : Fin 8, ∀ a : Fin 256,
    product P (BitVec.ofFin a) (intVal P n.1) = some ((BitVec.ofFin a : Byte).setWidth 16 * ((1 <<< n.1 : Nat) : BitVec 16)) := by
  cases hP <;> decide +kernel

/-! ## 16-bit words: of type `unsigned int` if `int` has 16 bits, promoted to `int` otherwise -/

theorem toNat16 (x : BitVec 16) : (x.setWidth 32).toNat = x.toNat := by
  simp only [BitVec.toNat_setWidth]
  have := x.isLt
  omega
theorem msb16 (x : BitVec 16) : (x.setWidth 32).msb = false := by
  simp [BitVec.msb_setWidth]
theorem shr16 (x : BitVec 16) {n : Nat} (hn : n < 32) : shr ⟨true, 32, x.setWidth 32⟩ n = some ⟨true, 32, x.setWidth 32 >>> n⟩ := by
  unfold shr
  rw [if_neg]
  · rfl
  · simp [msb16]
    omega
theorem shl16 (x : BitVec 16) {n : Nat} (hn : n < 16) : shl ⟨true, 32, x.setWidth 32⟩ n = some ⟨true, 32, x.setWidth 32 <<< n⟩ := by
  unfold shl
  have h : x.toNat * 2 ^ n < 2 ^ 31 := by
    have h1 := x.isLt
    have h2 : 2 ^ n ≤ 2 ^ 15 := Nat.pow_le_pow_right (by decide) (by omega)
    calc x.toNat * 2 ^ n ≤ x.toNat * 2 ^ 15 := Nat.mul_le_mul_left _ h2
      _ < 2 ^ 31 := by omega
  rw [if_neg (by simp; omega)]
  show (if _ then _ else _) = _
  rw [if_neg]
  · rfl
  · show ¬ ((x.setWidth 32).msb = true ∨ 2 ^ 31 ≤ (x.setWidth 32).toNat * 2 ^ n)
    rw [msb16, toNat16]
    simp only [Bool.false_eq_true, false_or]
    omega
theorem trunc {v w : Nat} (h : w ≤ v) (x : BitVec v) : x.signExtend w = x.setWidth w := BitVec.signExtend_eq_setWidth_of_le _ h

theorem xmul_bytes (hP : P.Ok) (tmp : BitVec 16) :
    assign P .u8 [u16 tmp] (Expr.cast .u8 (.var 0)) = some (tmp.setWidth 8) ∧
    assign P .u8 [u16 tmp] (Expr.var 0 >>> (8 : Expr)) = some ((tmp >>> 8).setWidth 8) := by
  have h32 : (shr ⟨true, 32, tmp.setWidth 32⟩ 8).map (fun x => x.bits 8) = some ((tmp >>> 8).setWidth 8) := by
    rw [show (8 : Int) = (8 : Nat) from rfl, shr16 tmp (by decide)]
    show some (BitVec.signExtend 8 (tmp.setWidth 32 >>> 8)) = _
    rw [trunc (by decide)]
    rfl
  cases hP
  · exact ⟨rfl, rfl⟩
  all_goals exact ⟨rfl, h32⟩

theorem rol16_bits (a : BitVec 16) {n : Nat} (hn : n < 16) (hn' : n ≠ 0) :
    BitVec.signExtend 16 ((a.setWidth 32 <<< n) ^^^ (a.setWidth 32 >>> (16 - n))) = KeccakRef.rol16 a n := by
  unfold KeccakRef.rol16
  rw [if_pos hn', trunc (by decide)]
  ext i hi
  simp
  omega

section
variable {x y : Val} {v w : BitVec 32}

/-- A value that is promoted to the `int` with bits `v`. -/
def IsInt (x : Val) (v : BitVec 32) : Prop := x = ⟨true, 32, v⟩ ∨ ∃ u : BitVec 16, x = u16 u ∧ v = u.setWidth 32

theorem common_int (hP : P.Ok) (h : P.int = 32) (hx : IsInt x v) (hy : IsInt y w) : common P x y = (true, 32) := by
  cases hP with
  | avr => cases h
  | _ => rcases hx with (rfl | ⟨u, rfl, rfl⟩) <;> rcases hy with (rfl | ⟨u', rfl, rfl⟩) <;> rfl

theorem bits_int (hx : IsInt x v) : x.bits 32 = v := by
  rcases hx with (rfl | ⟨u, rfl, rfl⟩)
  · exact BitVec.signExtend_eq v
  · rfl

theorem binary_int (hP : P.Ok) (h : P.int = 32) (hx : IsInt x v) (hy : IsInt y w) :
    binary P .and x y = some ⟨true, 32, v &&& w⟩ ∧ binary P .or x y = some ⟨true, 32, v ||| w⟩ ∧
    binary P .xor x y = some ⟨true, 32, v ^^^ w⟩ := by
  show binAt (common P x y) x y .and = _ ∧ binAt (common P x y) x y .or = _ ∧ binAt (common P x y) x y .xor = _
  rw [common_int hP h hx hy]
  unfold binAt
  rw [bits_int hx, bits_int hy]
  exact ⟨rfl, rfl, rfl⟩
end

theorem chiStep_ok (hP : P.Ok) (a b c : BitVec 16) : chiStep P a b c = some (a ^^^ (~~~ b &&& c)) := by
  by_cases h : P.int = 32
  · have h1 : BitVec.signExtend 16 (a.setWidth 32 ^^^ (~~~ b.setWidth 32 &&& c.setWidth 32)) = a ^^^ (~~~ b &&& c) := by
      rw [trunc (by decide)]
      ext i hi
      simp
    rw [← h1]
    have h2 : eval P [u16 a, u16 b, u16 c] (~~~ Expr.var 1) = some ⟨true, 32, ~~~ b.setWidth 32⟩ := by
      cases hP with
      | avr => cases h
      | _ => rfl
    have h3 : eval P [u16 a, u16 b, u16 c] (~~~ Expr.var 1 &&& Expr.var 2) = some ⟨true, 32, ~~~ b.setWidth 32 &&& c.setWidth 32⟩ := by
      show (eval P [u16 a, u16 b, u16 c] (~~~ Expr.var 1)).bind _ = _
      rw [h2]
      exact (binary_int hP h (.inl rfl) (.inr ⟨c, rfl, rfl⟩)).1
    have h4 : eval P [u16 a, u16 b, u16 c] (Expr.var 0 ^^^ (~~~ Expr.var 1 &&& Expr.var 2)) =
        some ⟨true, 32, a.setWidth 32 ^^^ (~~~ b.setWidth 32 &&& c.setWidth 32)⟩ := by
      show (eval P [u16 a, u16 b, u16 c] (Expr.var 0)).bind (fun x => (eval P [u16 a, u16 b, u16 c] (~~~ Expr.var 1 &&& Expr.var 2)).bind _) = _
      rw [h3]
      exact (binary_int hP h (.inr ⟨a, rfl, rfl⟩) (.inl rfl)).2.2
    unfold chiStep assign
    rw [h4]
    rfl
  · cases hP with
    | avr => rfl
    | _ => exact absurd rfl h

/-- The two shifts and their exclusive or, for operands promoted to `int`. -/
theorem rol_int (hP : P.Ok) (h : P.int = 32) (a : BitVec 16) {n : Nat} (hn : n < 16) :
    ((shl ⟨true, 32, a.setWidth 32⟩ n).bind fun x => (shr ⟨true, 32, a.setWidth 32⟩ ((16 - n : Nat) : Int)).bind fun y =>
      binary P .xor x y) = some ⟨true, 32, (a.setWidth 32 <<< n) ^^^ (a.setWidth 32 >>> (16 - n))⟩ := by
  rw [shl16 a hn, shr16 a (by omega)]
  exact (binary_int hP h (.inl rfl) (.inl rfl)).2.2

theorem rol16Opt_eq (hP : P.Ok) (h : P.int = 32) (a : BitVec 16) : ∀ n < 16, 
    rol16Opt P a n = (((shl ⟨true, 32, a.setWidth 32⟩ n).bind fun x => (shr ⟨true, 32, a.setWidth 32⟩ ((16 - n : Nat) : Int)).bind fun y =>
      binary P .xor x y)).map fun x => x.bits 16 := by
  intro n hn
  have hn : n = 0 ∨ n = 1 ∨ n = 2 ∨ n = 3 ∨ n = 4 ∨ n = 5 ∨ n = 6 ∨ n = 7 ∨ n = 8 ∨ n = 9 ∨ n = 10 ∨ n = 11 ∨ n = 12 ∨ n = 13 ∨
    n = 14 ∨ n = 15 := by omega
  cases hP with
  | avr => cases h
  | _ => rcases hn with (rfl|rfl|rfl|rfl|rfl|rfl|rfl|rfl|rfl|rfl|rfl|rfl|rfl|rfl|rfl|rfl) <;> rfl

theorem rol16Opt_ok (hP : P.Ok) (a : BitVec 16) {n : Nat} (hn : n < 16) (hn' : n ≠ 0) : rol16Opt P a n = some (KeccakRef.rol16 a n) := by
  by_cases h : P.int = 32
  · rw [rol16Opt_eq hP h a n hn, rol_int hP h a hn, ← rol16_bits a hn hn']
    rfl
  · cases hP with
    | avr =>
      have hn : n = 1 ∨ n = 2 ∨ n = 3 ∨ n = 4 ∨ n = 5 ∨ n = 6 ∨ n = 7 ∨ n = 8 ∨ n = 9 ∨ n = 10 ∨ n = 11 ∨ n = 12 ∨ n = 13 ∨
        n = 14 ∨ n = 15 := by omega
      rcases hn with (rfl|rfl|rfl|rfl|rfl|rfl|rfl|rfl|rfl|rfl|rfl|rfl|rfl|rfl|rfl) <;> rfl
    | _ => exact absurd rfl h


theorem rol16Ref_eq (hP : P.Ok) (h : P.int = 32) (a : BitVec 16) : ∀ n < 16, n ≠ 0 → ∀ t ∈ [Ty.uint, Ty.int],
    rol16Ref P a (ofNat P t n) = (((shl ⟨true, 32, a.setWidth 32⟩ n).bind fun x =>
      (shr ⟨true, 32, a.setWidth 32⟩ ((16 - n : Nat) : Int)).bind fun y => binary P .xor x y).map (Val.promote P)).map
        fun x => x.bits 16 := by
  intro n hn hn' t ht
  have hn : n = 1 ∨ n = 2 ∨ n = 3 ∨ n = 4 ∨ n = 5 ∨ n = 6 ∨ n = 7 ∨ n = 8 ∨ n = 9 ∨ n = 10 ∨ n = 11 ∨ n = 12 ∨ n = 13 ∨
    n = 14 ∨ n = 15 := by omega
  simp only [List.mem_cons, List.not_mem_nil, or_false] at ht
  cases hP with
  | avr => cases h
  | _ =>
    rcases ht with (rfl | rfl) <;>
    rcases hn with (rfl|rfl|rfl|rfl|rfl|rfl|rfl|rfl|rfl|rfl|rfl|rfl|rfl|rfl|rfl) <;> rfl

theorem rol16Ref_ok (hP : P.Ok) (a : BitVec 16) {n : Nat} (hn : n < 16) : ∀ t ∈ [Ty.uint, Ty.int],
    rol16Ref P a (ofNat P t n) = some (KeccakRef.rol16 a n) := by
  intro t ht
  by_cases hn' : n = 0
  · subst hn'
    simp only [List.mem_cons, List.not_mem_nil, or_false] at ht
    have h0 : BitVec.signExtend 16 (a.setWidth 32) = a := by
      rw [trunc (by decide)]
      ext i hi
      simp
    cases hP <;> rcases ht with (rfl | rfl) <;> first | rfl | exact congrArg some h0
  by_cases h : P.int = 32
  · rw [rol16Ref_eq hP h a n hn hn' t ht, rol_int hP h a hn, ← rol16_bits a hn hn']
    cases hP with
    | avr => cases h
    | _ => rfl
  · simp only [List.mem_cons, List.not_mem_nil, or_false] at ht
    cases hP with
    | avr =>
      have hn : n = 1 ∨ n = 2 ∨ n = 3 ∨ n = 4 ∨ n = 5 ∨ n = 6 ∨ n = 7 ∨ n = 8 ∨ n = 9 ∨ n = 10 ∨ n = 11 ∨ n = 12 ∨ n = 13 ∨
        n = 14 ∨ n = 15 := by omega
      rcases ht with (rfl | rfl) <;>
      rcases hn with (rfl|rfl|rfl|rfl|rfl|rfl|rfl|rfl|rfl|rfl|rfl|rfl|rfl|rfl|rfl) <;> rfl
    | _ => exact absurd rfl h

/-! ## The rotation of opt_8 -/

theorem xmul_ok (hP : P.Ok) (a b : BitVec 64) : ∀ m ≤ 7, ∀ n : Fin 8, ∀ i ∈ List.range 8,
    xmul P a (intVal P m) (intVal P n.1) i b = some (Opt.Opt8.xmul a m n.1 i b) := by
  have key : ∀ m < 8, ∀ i ∈ List.range 8,
    (eval P [intVal P m] ((Expr.var 0 + Expr.dec i) &&& Expr.hex 0x7)).map (·.b.toNat) = some ((m + i) &&& 7) ∧
    (eval P [intVal P m] ((Expr.var 0 + Expr.dec i + 1) &&& Expr.hex 0x7)).map (·.b.toNat) = some ((m + i + 1) &&& 7) := by
    cases hP <;> decide +kernel
  intro m hm n i hi
  obtain ⟨h1, h2⟩ := key m (by omega) i hi
  obtain ⟨k, hk, hk'⟩ := Option.map_eq_some_iff.mp h1
  obtain ⟨k', hj, hj'⟩ := Option.map_eq_some_iff.mp h2
  unfold xmul
  rw [show product P (Opt.byteOf a i) (intVal P n.1) = _ from product_ok hP n (Opt.byteOf a i).toFin]
  simp only [bind, hk, hj, Option.bind_some, (xmul_bytes hP _).1, (xmul_bytes hP _).2, hk', hj']
  rfl

theorem ror8bit_ok (hP : P.Ok) (x : BitVec 64) : ∀ n ∈ amounts, ror8bit P x n = some (Opt.Opt8.ror x n) := by
  have key : ∀ n ∈ amounts, (64 - n) &&& 7 < 8 ∧ (64 - n) >>> 3 ≤ 7 ∧
    (eval P [intVal P n] ((64 - Expr.var 0) &&& Expr.hex 0x7)).bind (castTo P .int) = some (intVal P ((64 - n) &&& 7)) ∧
    (eval P [intVal P n] ((64 - Expr.var 0) >>> (3 : Expr))).bind (castTo P .int) = some (intVal P ((64 - n) >>> 3)) := by
    cases hP <;> decide +kernel
  intro n hn
  obtain ⟨h1, h2, h3, h4⟩ := key n hn
  obtain ⟨v, hv, hv'⟩ := Option.bind_eq_some_iff.mp h3
  obtain ⟨u, hu, hu'⟩ := Option.bind_eq_some_iff.mp h4
  unfold ror8bit
  simp only [bind, hv, hu, hv', hu', Option.bind_some]
  exact foldlM_some _ _ fun i hi b => xmul_ok hP x b _ h2 ⟨_, h1⟩ i hi

/-! ## Bits of the absorbed string -/

theorem bitE_ok (hP : P.Ok) : ∀ n : Fin 8, ∀ b : Fin 256,
    eval P [u8 (BitVec.ofFin b), intVal P n.1] bitE = some (intVal P (Ref.curBit (BitVec.ofFin b) n.1).toNat) := by
  cases hP <;> decide +kernel
theorem bitE_ty (hP : P.Ok) (b : Byte) {n : Nat} (hn : n < 8) : ∀ t ∈ [Ty.size, Ty.ulong, Ty.u8],
    eval P [u8 b, ofNat P t n] bitE = some (intVal P (Ref.curBit b n).toNat) := by
  intro t ht
  refine Eq.trans ?_ (bitE_ok hP ⟨n, hn⟩ b.toFin)
  have hn : n = 0 ∨ n = 1 ∨ n = 2 ∨ n = 3 ∨ n = 4 ∨ n = 5 ∨ n = 6 ∨ n = 7 := by omega
  simp only [List.mem_cons, List.not_mem_nil, or_false] at ht
  cases hP <;> rcases ht with (rfl | rfl | rfl) <;> rcases hn with (rfl|rfl|rfl|rfl|rfl|rfl|rfl|rfl) <;> rfl

theorem pos_ok (hP : P.Ok) : ∀ q ∈ [(Ty.size, Ty.size), (.u64, .size), (.ulong, .ulong), (.u8, .u8)], ∀ i < 128,
    assign P q.2 [ofNat P q.1 i] (7 - Expr.var 0 % 8) = some (BitVec.ofNat _ (7 - i % 8)) := by
  intro q hq i hi
  have h : i % 8 < 8 := Nat.mod_lt _ (by decide)
  simp only [List.mem_cons, List.not_mem_nil, or_false] at hq
  revert i
  cases hP <;> rcases hq with (rfl | rfl | rfl | rfl) <;> decide +kernel

theorem int_bits (hP : P.Ok) : ∀ r ∈ [Ty.u8, Ty.u16, Ty.u32], ∀ v : Fin 256,
    (intVal P v.1).bits (r.bits P) = (BitVec.ofFin v : Byte).setWidth (r.bits P) := by
  intro r hr
  simp only [List.mem_cons, List.not_mem_nil, or_false] at hr
  cases hP <;> rcases hr with (rfl | rfl | rfl) <;> decide +kernel

theorem curBit_ok (hP : P.Ok) (b : Byte) {i : Nat} (hi : i < 128) {q : Ty × Ty} {r : Ty}
    (hq : q ∈ [(Ty.size, Ty.size), (.u64, .size), (.ulong, .ulong), (.u8, .u8)]) (hr : r ∈ [Ty.u8, Ty.u16, Ty.u32]) :
    curBit P q.1 q.2 r b i = some ((Ref.curBit b (7 - i % 8)).setWidth (r.bits P)) := by
  unfold curBit
  rw [pos_ok hP q hq i hi]
  have ht : q.2 ∈ [Ty.size, Ty.ulong, Ty.u8] := by
    simp only [List.mem_cons, List.not_mem_nil, or_false] at hq ⊢
    rcases hq with (rfl | rfl | rfl | rfl) <;> simp
  show (eval P [u8 b, ofNat P q.2 (7 - i % 8)] bitE).map _ = _
  rw [bitE_ty hP b (by omega) q.2 ht]
  exact congrArg some (int_bits hP r hr (Ref.curBit b (7 - i % 8)).toFin)

theorem lastBit_ok (hP : P.Ok) {r : Ty} (hr : r ∈ [Ty.u8, Ty.u16, Ty.u32]) (b : Byte) :
    lastBit P r b = some ((Ref.curBit b 0).setWidth (r.bits P)) := by
  have h : ∀ b : Fin 256, eval P [u8 (BitVec.ofFin b)] ((Expr.var 0 &&& Expr.hex 0x01) <<< (7 : Expr)) =
      some (intVal P (Ref.curBit (BitVec.ofFin b) 0).toNat) := by
    cases hP <;> decide +kernel
  unfold lastBit assign
  rw [show eval P [u8 b] ((Expr.var 0 &&& Expr.hex 0x01) <<< (7 : Expr)) = _ from h b.toFin]
  exact congrArg some (int_bits hP r hr (Ref.curBit b 0).toFin)

theorem yBit_ok (hP : P.Ok) : ∀ b : Fin 256, ∀ j : Fin 8, yBit P (yBits.getD j (0, 0)).1 (yBits.getD j (0, 0)).2 (BitVec.ofFin b) =
    some (Ref.curBit (BitVec.ofFin b) (7 - j)) := by
  cases hP <;> decide +kernel

end Model.Arith
