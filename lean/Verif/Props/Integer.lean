import Verif.Proof.Integer
/-!
# The integer arithmetic of the code is defined (C49)

On platforms with an `int` of 16 bits (AVR) or 32 bits, every shift, product, negation and rotation of the C code is evaluated with
the types of C: operands narrower than `int` are promoted, and overflow of `int`, shifts into its sign bit and shifts by too much
are undefined (`none`).  The theorems say that no case is undefined and that the values are those of the models, which the other
theorems relate to the specification.  Two places are undefined with a 16-bit `int`.
-/

namespace Props
open C C.Arith Model

variable {P : Platform}

/-- The platforms: AVR, 32 bits, 64-bit Windows, other 64-bit systems. -/
example : Platform.Ok ⟨16, 32, 16⟩ ∧ Platform.Ok ⟨32, 32, 32⟩ ∧ Platform.Ok ⟨32, 32, 64⟩ ∧ Platform.Ok ⟨32, 64, 64⟩ :=
  ⟨.avr, .ilp32, .llp64, .lp64⟩

/-- Reference implementation of Ascon: byte order, the number of the first round, the round. -/
theorem C49_ref (h : P.Ok) (S : List Byte) (x : BitVec 64) (s : Opt.State) :
    Arith.load64 P S = some (AsconRef.load64 S) ∧ Arith.store64 P x = some (AsconRef.store64 x) ∧
    (∀ rounds ≤ 12, Arith.start P rounds = some (Arith.intVal P (12 - rounds))) ∧
    (∀ i < 12, Arith.refRound P i s = some (AsconRef.round i s)) := by
  refine ⟨?_, ?_, ?_, fun i hi => Arith.refRound_ok h hi s⟩
  · cases h <;> rfl
  · cases h <;> rfl
  · have : ∀ rounds < 13, Arith.start P rounds = some (Arith.intVal P (12 - rounds)) := by cases h <;> decide +kernel
    exact fun r hr => this r (by omega)

/-- The bits of the string absorbed in the rekeying function, with the types of the loop variable, of the position and of the result
in each implementation.  The loop runs to 126. -/
theorem C49_absorb (h : P.Ok) (b : Byte) {i : Nat} (hi : i < 128) {ti t r : Ty}
    (ht : (ti, t) ∈ [(Ty.size, Ty.size), (.u64, .size), (.ulong, .ulong), (.u8, .u8)]) (hr : r ∈ [Ty.u8, Ty.u16, Ty.u32]) :
    Arith.curBit P ti t r b i = some ((Ref.curBit b (7 - i % 8)).setWidth (r.bits P)) ∧
    Arith.lastBit P r b = some ((Ref.curBit b 0).setWidth (r.bits P)) ∧
    Arith.bit56 P b = some (b.setWidth 64 <<< 56) ∧
    Arith.bit24 P (u8 b) = some (b.setWidth 32 <<< 24) ∧ Arith.bit24 P (u32 (b.setWidth 32)) = some (b.setWidth 32 <<< 24) ∧
    (∀ j < 8, Arith.yBit P (Arith.yBits.getD j (0, 0)).1 (Arith.yBits.getD j (0, 0)).2 b = some (Ref.curBit b (7 - j))) :=
  ⟨Arith.curBit_ok h b hi ht hr, Arith.lastBit_ok h hr b, by cases h <;> rfl, by cases h <;> rfl, by cases h <;> rfl,
    fun j hj => Arith.yBit_ok h b.toFin ⟨j, hj⟩⟩

example : Arith.curBit ⟨16, 32, 16⟩ .size .size .u8 0x10 3 = some 0x80 := by decide
/-- A shift in `int` without reduction to one bit would be undefined. -/
example : assign ⟨16, 32, 16⟩ .u8 [u8 0xff] (Expr.var 0 <<< (8 : Expr)) = none := by decide

/-- opt_64: byte order and round. -/
theorem C49_opt64 (h : P.Ok) (x : BitVec 64) (s : Opt.State) (c : Byte) :
    Arith.u64big P x = some (Opt.u64big x) ∧
    Arith.roundWith (Arith.ror64 P) s (c.setWidth 64) = some (Opt.Opt64.round s c) :=
  ⟨Arith.u64big_ok h x, Arith.roundWith_ok (Arith.ror64_ok h) s _⟩

/-- opt_32, opt_32_compact and opt_32_tiny: the round, and the constants computed by opt_32_tiny (and opt_8_tiny): the first one for
`nr` rounds, and the next one. -/
theorem C49_opt32 (h : P.Ok) (s : Opt.State) (c : Byte) :
    Arith.round32 P s c = some (Opt.Opt32.round s c) ∧
    (∀ nr ∈ [1, 6, 12], Arith.tinyStart P (BitVec.ofNat 8 nr) = some (Arith.intVal P ((3 + nr) <<< 4 ||| (12 - nr)))) ∧
    (∀ i < 256, 0x4b ≤ i → Arith.tinyNext P (Arith.intVal P i) = some (Arith.intVal P (i - 0x0f))) := by
  refine ⟨Arith.round32_ok h s c, ?_, ?_⟩
  · cases h <;> decide +kernel
  · cases h <;> decide +kernel

/-- opt_8 and opt_8_tiny: rotations by products of bytes, and the operations on bytes. -/
theorem C49_opt8 (h : P.Ok) (x : BitVec 64) (a b : Byte) :
    (∀ n ∈ Arith.amounts, Arith.ror8bit P x n = some (Opt.Opt8.ror x n)) ∧
    Arith.not8 P a = some (~~~ a) ∧ Arith.xor8 P a b = some (a ^^^ b) ∧ Arith.and8 P a b = some (a &&& b) ∧
    Arith.or8 P a b = some (a ||| b) := by
  refine ⟨Arith.ror8bit_ok h x, ?_⟩
  cases h
  · refine ⟨congrArg some (?_ : BitVec.signExtend 8 (~~~ a.setWidth 16) = _),
      congrArg some (?_ : BitVec.signExtend 8 (a.setWidth 16 ^^^ b.setWidth 16) = _),
      congrArg some (?_ : BitVec.signExtend 8 (a.setWidth 16 &&& b.setWidth 16) = _),
      congrArg some (?_ : BitVec.signExtend 8 (a.setWidth 16 ||| b.setWidth 16) = _)⟩
    all_goals rw [Arith.trunc (by decide)]; ext i hi; simp
  all_goals
    refine ⟨congrArg some (?_ : BitVec.signExtend 8 (~~~ a.setWidth 32) = _),
      congrArg some (?_ : BitVec.signExtend 8 (a.setWidth 32 ^^^ b.setWidth 32) = _),
      congrArg some (?_ : BitVec.signExtend 8 (a.setWidth 32 &&& b.setWidth 32) = _),
      congrArg some (?_ : BitVec.signExtend 8 (a.setWidth 32 ||| b.setWidth 32) = _)⟩
    all_goals rw [Arith.trunc (by decide)]; ext i hi; simp

/-- bi_32 and bi_32_compact: conversions to and from the interleaved form, and the round. -/
theorem C49_bi32 (h : P.Ok) (x : BitVec 64) (s : Opt.State) (c : BitVec 64) :
    Arith.toBI P x = some (Opt.Bi32.toBI x) ∧ Arith.fromBI P x = some (Opt.Bi32.fromBI x) ∧
    Arith.roundWith (Arith.rorBi32 P) s c = some (Opt.Bi32.round s c) :=
  ⟨by cases h <;> rfl, by cases h <;> rfl, Arith.roundWith_ok (Arith.rorBi32_ok h) s c⟩

/-- bi_8, for an `int` of 32 bits. -/
theorem C49_bi8_partial (h : P.Ok) (hint : P.int = 32) (x : BitVec 64) (s : Opt.State) (c : BitVec 64) :
    Arith.interleave8 P x = some (Opt.Bi8.interleave8 x) ∧ Arith.roundBi8 P s c = some (Opt.Bi8.round s c) :=
  ⟨Arith.interleave8_ok h x, Arith.roundBi8_ok h hint s c⟩

/-- bi_8, for an `int` of 16 bits: a rotation by `n` is undefined exactly if one of the bytes from the `n`-th on is at least 0x80. -/
theorem C49_bi8_avr (x : BitVec 64) {n : Nat} (hn : n ∈ Arith.amounts) :
    ((∃ j, n ≤ j ∧ j < 8 ∧ 0x80 ≤ (Opt.byteOf x j).toNat) → Arith.rorBi8 ⟨16, 32, 16⟩ x n = none) ∧
    ((∀ j, n ≤ j → j < 8 → (Opt.byteOf x j).toNat < 0x80) → Arith.rorBi8 ⟨16, 32, 16⟩ x n = some (Opt.Bi8.ror x n)) := by
  have step (j : Nat) (hj : j ∈ List.range 8) (b : BitVec 64) : Arith.rorByte ⟨16, 32, 16⟩ x n j b =
      if n + j < 8 ∧ 0x80 ≤ (Opt.byteOf x (n + j)).toNat then none
      else some (Opt.Opt8.setByte b j (Opt.Bi8.ror8 (Opt.byteOf x ((n + j) &&& 7)) ((n + j) >>> 3))) := by
    obtain ⟨h1, h2⟩ := Arith.rorByte_eq .avr x b n hn j hj
    have h0 : Arith.ror8 ⟨16, 32, 16⟩ (Opt.byteOf x ((n + j) &&& 7)) (Arith.intVal ⟨16, 32, 16⟩ ((n + j) >>> 3)) =
        if (n + j) >>> 3 = 0 ∧ 128 ≤ (Opt.byteOf x ((n + j) &&& 7)).toNat then none
        else some (Opt.Bi8.ror8 (Opt.byteOf x ((n + j) &&& 7)) ((n + j) >>> 3)) :=
      Arith.ror8_avr ⟨_, h1⟩ (Opt.byteOf x ((n + j) &&& 7)).toFin
    rw [h2, h0]
    have h3 : (n + j) >>> 3 = (n + j) / 8 := Nat.shiftRight_eq_div_pow _ 3
    have h4 : (n + j) &&& 7 = (n + j) % 8 := Nat.and_two_pow_sub_one_eq_mod _ 3
    by_cases hc : n + j < 8
    · have h5 : (n + j) >>> 3 = 0 := by omega
      have h6 : (n + j) &&& 7 = n + j := by omega
      rw [h5, h6]
      by_cases hb : 0x80 ≤ (Opt.byteOf x (n + j)).toNat
      · rw [if_pos ⟨rfl, hb⟩, if_pos ⟨hc, hb⟩]
        rfl
      · rw [if_neg fun hh => hb hh.2, if_neg fun hh => hb hh.2]
        rfl
    · rw [if_neg (fun hh => by have := hh.1; omega), if_neg fun hh => hc hh.1]
      rfl
  constructor
  · rintro ⟨j, h1, h2, h3⟩
    refine Arith.foldlM_none _ _ (j - n) (List.mem_range.mpr (by omega)) (fun b => ?_)
    rw [step (j - n) (List.mem_range.mpr (by omega)) b, show n + (j - n) = j by omega, if_pos ⟨h2, h3⟩]
  · intro hall
    refine Arith.foldlM_some _ _ fun j hj b => ?_
    rw [step j hj b, if_neg]
    rintro ⟨h1, h2⟩
    exact absurd (hall (n + j) (by omega) h1) (by omega)

/-- It happens: the first round of authentication with the nonce 0 is undefined. -/
theorem C49_bi8_false : Arith.roundBi8 ⟨16, 32, 16⟩ ⟨0, 0, Opt.Bi8.prims.toWord (le64 (Opt.iv 1)), 0, 0⟩ 0x0101010100000000 = none := by
  decide +kernel

/-- The 64-bit code of ISAP-A-128 (and that with AVX-512 of ISAP-A-128A): rotations by the entries of a table and their
differences, byte order, and the collection of a partial block. -/
theorem C49_a128 (h : P.Ok) (x : BitVec 64) (b : Byte) :
    (∀ i < 5, Arith.rotrFirst P x i = some (A128.Opt64.rotr x (Arith.R i 0)) ∧
      Arith.rotrSecond P x i = some (A128.Opt64.rotr x (Arith.R i 1 - Arith.R i 0))) ∧
    Arith.u64bigRot P x = some (A128.Opt64.u64big x) ∧
    Arith.shiftIn P x b = some ((x <<< 8) ||| b.setWidth 64) := by
  refine ⟨fun i hi => ?_, Arith.u64bigRot_ok h x, ?_⟩
  · have hi : i = 0 ∨ i = 1 ∨ i = 2 ∨ i = 3 ∨ i = 4 := by omega
    cases h <;> rcases hi with (rfl | rfl | rfl | rfl | rfl) <;> exact ⟨rfl, rfl⟩
  · cases h <;> rfl

/-- The 32-bit code of ISAP-A-128: rotations. -/
theorem C49_a128_32 (h : P.Ok) (x : BitVec 32) : ∀ n ∈ Arith.amounts32, Arith.rotr32 P x n = some (A128.Opt32.rotr32 x n) := by
  intro n hn
  simp only [Arith.amounts32, List.mem_cons, List.not_mem_nil, or_false] at hn
  cases h <;> rcases hn with (rfl|rfl|rfl|rfl|rfl|rfl|rfl|rfl|rfl|rfl|rfl) <;> rfl

/-- Keccak-p[400]: rotations of 16-bit lanes (in the reference implementation with an offset of type `unsigned int` from a table, or
the constant 1), and the step of chi. -/
theorem C49_keccak (h : P.Ok) (a b c : BitVec 16) {n : Nat} (hn : n < 16) :
    Arith.rol16Ref P a (ofNat P .uint n) = some (KeccakRef.rol16 a n) ∧
    Arith.rol16Ref P a (ofNat P .int n) = some (KeccakRef.rol16 a n) ∧
    (n ≠ 0 → Arith.rol16Opt P a n = some (KeccakRef.rol16 a n)) ∧
    Arith.chiStep P a b c = some (a ^^^ (~~~ b &&& c)) :=
  ⟨Arith.rol16Ref_ok h a hn _ (by decide), Arith.rol16Ref_ok h a hn _ (by decide), Arith.rol16Opt_ok h a hn,
    Arith.chiStep_ok h a b c⟩

/-- The largest value that is shifted there just fits. -/
example : Arith.rol16Opt ⟨32, 64, 64⟩ 0xffff 15 = some 0xffff := by decide

/-- The words of the initial value in the 64-bit code of ISAP-K, for an `int` of 32 bits. -/
theorem C49_iv_partial (h : P.Ok) (hint : P.int = 32) :
    Arith.ivWords P (K128.Opt64.primsK128a.iv 1) = some [0x8001, 0x0190, 0x0110, 0x0808] ∧
    Arith.ivWords P (K128.Opt64.primsK128.iv 1) = some [0x8001, 0x0190, 0x0c14, 0x0c0c] := by
  cases h with
  | avr => cases hint
  | _ => decide +kernel

/-- For an `int` of 16 bits the first word is undefined. -/
theorem C49_iv_false : Arith.ivWords ⟨16, 32, 16⟩ (K128.Opt64.primsK128a.iv 1) = none := by decide +kernel

end Props
