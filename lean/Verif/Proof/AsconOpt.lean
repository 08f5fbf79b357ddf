import Verif.Model.AsconOpt
import Verif.Proof.OptMode
import Verif.Proof.BitPerm
/-!
# The C versions of `asconp.h` implement the Ascon permutation
-/

namespace Model.Opt
open C Spec Spec.Ascon

/-! ## Sequences of rounds -/

theorem seqRounds_append {κ : Type} (round : State → κ → State) (a b : List κ) (s : State) :
    seqRounds round (a ++ b) s = seqRounds round b (seqRounds round a s) := by
  simp [seqRounds]

/-- The constant `k` makes `round` compute round `i` of the permutation in the representation `φ`. -/
def RoundOK {κ : Type} (round : State → κ → State) (φ : BitVec 64 → BitVec 64) (i : Nat) (k : κ) : Prop :=
  ∀ S, round (rep φ S) k = rep φ (Ascon.round i S)

/-- The constants `cs` make `round` compute the rounds from `i` on. -/
def RoundsOK {κ : Type} (round : State → κ → State) (φ : BitVec 64 → BitVec 64) : Nat → List κ → Prop
  | _, [] => True
  | i, k :: cs => RoundOK round φ i k ∧ RoundsOK round φ (i + 1) cs

theorem RoundsOK.run {κ : Type} {round : State → κ → State} {φ : BitVec 64 → BitVec 64} {cs : List κ} {i : Nat}
    (h : RoundsOK round φ i cs) (S : State) : seqRounds round cs (rep φ S) = rep φ (rounds i cs.length S) := by
  induction cs generalizing i S with
  | nil => rfl
  | cons k cs ih =>
    simp only [seqRounds, List.foldl_cons] at ih ⊢
    rw [h.1 S, ih h.2]
    rfl

/-- All twelve constants. -/
structure ConstsOK {κ : Type} (round : State → κ → State) (φ : BitVec 64 → BitVec 64) (k12 k6 k1 : List κ) : Prop where
  h12 : RoundsOK round φ 0 k12
  h6 : RoundsOK round φ 6 k6
  h1 : RoundsOK round φ 11 k1
  l12 : k12.length = 6
  l6 : k6.length = 5
  l1 : k1.length = 1

section
variable {κ : Type} {round : State → κ → State} {φ : BitVec 64 → BitVec 64} {k12 k6 k1 : List κ}

theorem ConstsOK.run1 (h : ConstsOK round φ k12 k6 k1) (S : State) : seqRounds round k1 (rep φ S) = rep φ (p 1 S) := by
  rw [h.h1.run, h.l1]; rfl

theorem ConstsOK.run6 (h : ConstsOK round φ k12 k6 k1) (S : State) :
    seqRounds round (k6 ++ k1) (rep φ S) = rep φ (p 6 S) := by
  rw [seqRounds_append, h.h6.run, h.l6, h.run1]; rfl

theorem ConstsOK.run12 (h : ConstsOK round φ k12 k6 k1) (S : State) :
    seqRounds round (k12 ++ k6 ++ k1) (rep φ S) = rep φ (p 12 S) := by
  rw [List.append_assoc, seqRounds_append, h.h12.run, h.l12, h.run6]
  rfl

theorem runs_pure_eq {α : Type} {e : Env} {s : St} {a b : α} (h : a = b) : Runs (pure a : CM α) e s b s := h ▸ ⟨[], rfl⟩

/-- What remains to be shown of a version of `asconp.h` besides its permutation. -/
structure WordOK (toWord fromWord toBI φ : BitVec 64 → BitVec 64) : Prop where
  toWord : ∀ B, B.length = 8 → toWord (le64 B) = φ (ofBe64 B)
  fromWord : ∀ w, toLe64 (fromWord (φ w)) = be64 w
  toBI : ∀ w, toBI w = φ w
  xor : ∀ a b, φ (a ^^^ b) = φ a ^^^ φ b
  top : φ 0x8000000000000000 = 0x8000000000000000
  one : φ 1 = 1

theorem repOK_unrolled {toWord fromWord toBI : BitVec 64 → BitVec 64} (w : WordOK toWord fromWord toBI φ)
    (h : ConstsOK round φ k12 k6 k1) : RepOK (unrolled round k12 k6 k1 toWord fromWord toBI) φ p where
  toWord := w.toWord
  fromWord := w.fromWord
  toBI := w.toBI
  xor := w.xor
  top := w.top
  one := w.one
  pH _ _ S := runs_pure_eq (h.run12 S)
  pB _ _ S := runs_pure_eq (h.run1 S)
  pE _ _ S := runs_pure_eq (h.run6 S)
  pK _ _ S := runs_pure_eq (h.run12 S)

theorem repOK_viaProunds {prounds : Nat → State → CM State} {toWord fromWord toBI : BitVec 64 → BitVec 64}
    (w : WordOK toWord fromWord toBI φ)
    (h : ∀ n, n = 1 ∨ n = 6 ∨ n = 12 → ∀ (e : Env) (s : St) S, Runs (prounds n (rep φ S)) e s (rep φ (p n S)) s) :
    RepOK (viaProunds prounds toWord fromWord toBI) φ p where
  toWord := w.toWord
  fromWord := w.fromWord
  toBI := w.toBI
  xor := w.xor
  top := w.top
  one := w.one
  pH := h 12 (by simp)
  pB := h 1 (by simp)
  pE := h 6 (by simp)
  pK := h 12 (by simp)

theorem runs_switchRounds (h : ConstsOK round φ k12 k6 k1) {n : Nat} (hn : n = 1 ∨ n = 6 ∨ n = 12) (e : Env) (s : St)
    (S : State) : Runs (switchRounds round k12 k6 k1 n (rep φ S)) e s (rep φ (p n S)) s := by
  unfold switchRounds
  rcases hn with hn | hn | hn <;> subst hn
  · refine runs_if_false (by omega) ?_
    refine runs_if_false (by omega) ?_
    exact runs_pure_eq (h.run1 S)
  · refine runs_if_false (by omega) ?_
    refine runs_if_true rfl ?_
    exact runs_pure_eq (h.run6 S)
  · refine runs_if_true rfl ?_
    exact runs_pure_eq (h.run12 S)

end

/-- The byte constants are the ones of the specification. -/
def ByteRoundOK (round : State → Byte → State) : Prop :=
  ∀ S c, round S c = lin (sub { S with x2 := S.x2 ^^^ c.setWidth 64 })

theorem rep_id (S : State) : rep id S = S := rfl

theorem ByteRoundOK.const {round : State → Byte → State} (h : ByteRoundOK round) (i : Nat) (hi : i < 12) :
    RoundOK round id i (BitVec.ofNat 8 (0xf0 - 0x0f * i)) := by
  intro S
  rw [rep_id, rep_id, h, Ascon.round]
  have : (BitVec.ofNat 8 (0xf0 - 0x0f * i)).setWidth 64 = rc i := by
    rw [rc]
    apply BitVec.eq_of_toNat_eq
    simp only [BitVec.toNat_setWidth, BitVec.toNat_ofNat]
    have : 0xf0 - 0x0f * i < 256 := by omega
    rw [Nat.mod_eq_of_lt (a := 0xf0 - 0x0f * i) (b := 2 ^ 8) this]
  rw [this]

theorem ByteRoundOK.consts {round : State → Byte → State} (h : ByteRoundOK round) :
    ConstsOK round id c12 c6 c1 where
  h12 := ⟨h.const 0 (by omega), h.const 1 (by omega), h.const 2 (by omega), h.const 3 (by omega), h.const 4 (by omega),
    h.const 5 (by omega), trivial⟩
  h6 := ⟨h.const 6 (by omega), h.const 7 (by omega), h.const 8 (by omega), h.const 9 (by omega), h.const 10 (by omega),
    trivial⟩
  h1 := ⟨h.const 11 (by omega), trivial⟩
  l12 := rfl
  l6 := rfl
  l1 := rfl

/-- The `do`-`while` loop runs the rounds `i, ..., 11`. -/
theorem runs_tinyLoop {round : State → Byte → State} (h : ByteRoundOK round) (e : Env) (s : St) (n fuel i : Nat)
    (hn : i + n + 1 = 12) (hf : n < fuel) (S : State) :
    Runs (tinyLoop round fuel ((0xf0 - 0x0f * i : Nat) : Int) S) e s (rounds i (n + 1) S) s := by
  induction n generalizing i fuel S with
  | zero =>
    obtain ⟨fuel, rfl⟩ : ∃ f, fuel = f + 1 := ⟨fuel - 1, by omega⟩
    obtain rfl : i = 11 := by omega
    rw [tinyLoop]
    refine runs_if_false (by decide) ?_
    exact runs_pure_eq ((h.const 11 (by omega)) S)
  | succ n ih =>
    obtain ⟨fuel, rfl⟩ : ∃ f, fuel = f + 1 := ⟨fuel - 1, by omega⟩
    rw [tinyLoop]
    refine runs_if_true (by omega) ?_
    have e1 : BitVec.ofInt 8 ((0xf0 - 0x0f * i : Nat) : Int) = BitVec.ofNat 8 (0xf0 - 0x0f * i) := rfl
    have e2 : ((0xf0 - 0x0f * i : Nat) : Int) + -0x0f = ((0xf0 - 0x0f * (i + 1) : Nat) : Int) := by omega
    rw [e1, e2]
    have := ih fuel (i + 1) (by omega) (by omega) (Ascon.round i S)
    have hc : round S (BitVec.ofNat 8 (0xf0 - 0x0f * i)) = Ascon.round i S := (h.const i (by omega)) S
    rw [hc]
    exact this

theorem runs_tinyRounds {round : State → Byte → State} (h : ByteRoundOK round) {n : Nat} (hn : n = 1 ∨ n = 6 ∨ n = 12)
    (e : Env) (s : St) (S : State) : Runs (tinyRounds round n (rep id S)) e s (rep id (p n S)) s := by
  rw [rep_id, rep_id, tinyRounds, p]
  rcases hn with hn | hn | hn <;> subst hn
  · exact runs_tinyLoop h e s 0 100 11 rfl (by omega) S
  · exact runs_tinyLoop h e s 5 100 6 rfl (by omega) S
  · exact runs_tinyLoop h e s 11 100 0 rfl (by omega) S

/-! ## Byte order -/

theorem u64big_eq (x : BitVec 64) : u64big x = Bits.perm 64 (fun i => 8 * (7 - i / 8) + i % 8) x := by
  refine Bits.or_ext (f := u64big) (g := Bits.perm 64 _) ?_ (Bits.perm_or _) (by decide +kernel) (by decide +kernel) x
  intro x y
  apply BitVec.eq_of_getLsbD_eq; intro i hi
  simp only [u64big, BitVec.getLsbD_or, BitVec.getLsbD_and, BitVec.getLsbD_shiftLeft, BitVec.getLsbD_ushiftRight,
    Bool.and_or_distrib_left, Bool.and_or_distrib_right]
  ac_rfl

theorem u64big_le64 (B : List Byte) : u64big (le64 B) = ofBe64 B := by
  rw [u64big_eq]
  apply BitVec.eq_of_getLsbD_eq; intro i hi
  rw [Bits.getLsbD_perm _ _ hi, getLsbD_le64 _ (by omega), getLsbD_ofBe64 _ hi]
  rw [show (8 * (7 - i / 8) + i % 8) / 8 = 7 - i / 8 by omega, show (8 * (7 - i / 8) + i % 8) % 8 = i % 8 by omega]

theorem toLe64_u64big (w : BitVec 64) : toLe64 (u64big w) = be64 w := by
  rw [u64big_eq]
  apply ext_getD (n := 8) (by simp) (by simp)
  intro i hi j hj
  rw [getLsbD_toLe64 _ hi hj, Bits.getLsbD_perm _ _ (by omega), getD_be64 _ hi, BitVec.getLsbD_setWidth,
    BitVec.getLsbD_ushiftRight]
  simp only [hj, decide_true, Bool.true_and]
  congr 1; omega

theorem wordOK_id : WordOK u64big u64big id id where
  toWord B _ := u64big_le64 B
  fromWord := toLe64_u64big
  toBI _ := rfl
  xor _ _ := rfl
  top := rfl
  one := rfl

/-! ## opt_64 -/

namespace Opt64

theorem ror_eq (x : BitVec 64) (n : Nat) (h : n < 64) : ror x n = x.rotateRight n := by
  rw [BitVec.rotateRight_def, Nat.mod_eq_of_lt h]; rfl

theorem rotr_xor (x y : BitVec 64) (n : Nat) (h : n < 64) : (x ^^^ y).rotateRight n = x.rotateRight n ^^^ y.rotateRight n := by
  rw [Bits.rotateRight_eq_perm h, Bits.rotateRight_eq_perm h, Bits.rotateRight_eq_perm h, Bits.perm_xor]

theorem rotr_not (x : BitVec 64) (n : Nat) (h : n < 64) : (~~~ x).rotateRight n = ~~~ x.rotateRight n := by
  rw [Bits.rotateRight_eq_perm h, Bits.rotateRight_eq_perm h, Bits.perm_not]
  intro i _; omega

theorem rotr_rotr (x : BitVec 64) (n m : Nat) (h : n + m < 64) :
    (x.rotateRight n).rotateRight m = x.rotateRight (n + m) := by
  rw [Bits.rotateRight_eq_perm (by omega), Bits.rotateRight_eq_perm (by omega), Bits.rotateRight_eq_perm (by omega),
    Bits.perm_perm (fun i _ => by omega)]
  apply Bits.perm_congr
  intro i _; omega

/-- `x ^ ROR(x ^ ROR(x, b - a), a)` is the diffusion of one word. -/
theorem two_rotr (x : BitVec 64) (a b : Nat) (h : a + b < 64) :
    x ^^^ (x ^^^ x.rotateRight b).rotateRight a = x ^^^ x.rotateRight a ^^^ x.rotateRight (a + b) := by
  rw [rotr_xor _ _ _ (by omega), rotr_rotr _ _ _ (by omega), Nat.add_comm b a, BitVec.xor_assoc]

theorem roundWith_spec (S : State) (c : BitVec 64) :
    roundWith BitVec.rotateRight S c = lin (sub { S with x2 := S.x2 ^^^ c }) := by
  rw [sub_eq]
  simp only [roundWith, two_rotr _ _ _ (show 19 + (28 - 19) < 64 by omega), two_rotr _ _ _ (show 39 + (61 - 39) < 64 by omega),
    two_rotr _ _ _ (show 1 + (6 - 1) < 64 by omega), two_rotr _ _ _ (show 10 + (17 - 10) < 64 by omega),
    two_rotr _ _ _ (show 7 + (41 - 7) < 64 by omega), lin, subSliced, sigma]
  congr 1
  · ac_rfl
  · rw [rotr_not _ _ (by omega), rotr_not _ _ (by omega)]
    generalize ((_ : BitVec 64).rotateRight 1) = u
    generalize ((_ : BitVec 64).rotateRight _) = v
    generalize (S.x2 ^^^ c ^^^ S.x1 ^^^ ~~~S.x3 &&& (S.x4 ^^^ S.x3)) = w
    apply BitVec.eq_of_getLsbD_eq; intro i hi
    simp only [BitVec.getLsbD_not, BitVec.getLsbD_xor, hi, decide_true, Bool.true_and]
    generalize u.getLsbD i = a
    generalize v.getLsbD i = b
    generalize w.getLsbD i = d
    revert a b d; decide

theorem byteRound : ByteRoundOK round := by
  intro S c
  rw [← roundWith_spec]
  simp only [round, roundWith, ror_eq _ _ (show 28 - 19 < 64 by omega), ror_eq _ 19 (by omega),
    ror_eq _ (61 - 39) (by omega), ror_eq _ 39 (by omega), ror_eq _ (6 - 1) (by omega), ror_eq _ 1 (by omega),
    ror_eq _ (17 - 10) (by omega), ror_eq _ 10 (by omega), ror_eq _ (41 - 7) (by omega)]

theorem repOK : RepOK prims id p := repOK_unrolled wordOK_id byteRound.consts

end Opt64

/-! ## opt_32 -/

namespace Opt32

theorem sbox_spec (S : State) (c : BitVec 64) : sbox S c = sub { S with x2 := S.x2 ^^^ c } := by
  rw [sub_eq]
  apply State.ext' <;> apply BitVec.eq_of_getLsbD_eq <;> intro i hi <;>
    simp only [subSliced, sbox, BitVec.getLsbD_xor, BitVec.getLsbD_and, BitVec.getLsbD_not, hi, decide_true, Bool.true_and] <;>
    generalize S.x0.getLsbD i = a0 <;> generalize S.x1.getLsbD i = a1 <;> generalize S.x2.getLsbD i = a2 <;>
    generalize S.x3.getLsbD i = a3 <;> generalize S.x4.getLsbD i = a4 <;> generalize c.getLsbD i = a5 <;>
    revert a0 a1 a2 a3 a4 a5 <;> decide

theorem shifts (x : BitVec 64) (n : Nat) (h : 0 < n) (h2 : n < 64) : (x >>> n) ^^^ (x <<< (64 - n)) = x.rotateRight n := by
  rw [BitVec.rotateRight_def, Nat.mod_eq_of_lt h2]
  apply BitVec.eq_of_getLsbD_eq; intro i hi
  simp only [BitVec.getLsbD_xor, BitVec.getLsbD_or, BitVec.getLsbD_ushiftRight, BitVec.getLsbD_shiftLeft, hi, decide_true,
    Bool.true_and]
  by_cases h3 : i < 64 - n
  · simp [h3]
  · simp [h3, BitVec.getLsbD_of_ge x (n + i) (by omega)]

theorem two_shifts (x : BitVec 64) (a b : Nat) (ha : 0 < a) (ha2 : a < 64) (hb : 0 < b) (hb2 : b < 64) :
    x ^^^ ((x >>> a) ^^^ (x <<< (64 - a)) ^^^ (x >>> b) ^^^ (x <<< (64 - b))) = sigma a b x := by
  rw [shifts x a ha ha2, BitVec.xor_assoc (x.rotateRight a), shifts x b hb hb2, sigma, BitVec.xor_assoc]

theorem byteRound : ByteRoundOK round := by
  intro S c
  rw [← sbox_spec]
  generalize hT : sbox S (c.setWidth 64) = T
  have h0 := two_shifts T.x0 19 28 (by omega) (by omega) (by omega) (by omega)
  have h1 := two_shifts T.x1 61 39 (by omega) (by omega) (by omega) (by omega)
  have h2 := two_shifts T.x2 1 6 (by omega) (by omega) (by omega) (by omega)
  have h3 := two_shifts T.x3 10 17 (by omega) (by omega) (by omega) (by omega)
  have h4 := two_shifts T.x4 7 41 (by omega) (by omega) (by omega) (by omega)
  simp only [round, hT, lin]
  rw [← h0, ← h1, ← h2, ← h3, ← h4]

theorem repOK : RepOK prims id p := repOK_unrolled wordOK_id byteRound.consts
theorem repOKCompact : RepOK primsCompact id p :=
  repOK_viaProunds wordOK_id fun _ hn => runs_switchRounds byteRound.consts hn
theorem repOKTiny : RepOK primsTiny id p := repOK_viaProunds wordOK_id fun _ hn => runs_tinyRounds byteRound hn

end Opt32

/-! ## Bytes of a lane -/

theorem getLsbD_byteOf (x : BitVec 64) (j : Nat) {k : Nat} (hk : k < 8) : (byteOf x j).getLsbD k = x.getLsbD (8 * j + k) := by
  rw [byteOf, BitVec.getLsbD_setWidth, BitVec.getLsbD_ushiftRight]; simp [hk]

theorem getLsbD_ff {i : Nat} : (0xff#64).getLsbD i = decide (i < 8) := by
  by_cases h : i < 64
  · revert i; decide +kernel
  · rw [BitVec.getLsbD_of_ge _ _ (by omega)]; simp; omega

theorem getLsbD_setByte (x : BitVec 64) (v : Byte) {i j : Nat} (hi : i < 64) :
    (Opt8.setByte x j v).getLsbD i = if i / 8 = j then v.getLsbD (i % 8) else x.getLsbD i := by
  simp only [Opt8.setByte, BitVec.getLsbD_or, BitVec.getLsbD_and, BitVec.getLsbD_not, BitVec.getLsbD_shiftLeft, getLsbD_ff,
    BitVec.getLsbD_setWidth, hi, decide_true, Bool.true_and]
  by_cases h : i / 8 = j
  · rw [if_pos h]
    have h1 : ¬ i < 8 * j := by omega
    have h2 : i - 8 * j < 8 := by omega
    have h3 : i - 8 * j = i % 8 := by omega
    simp [h1, h2, ← h3, show i - 8 * j < 64 by omega]
  · rw [if_neg h]
    by_cases h1 : i < 8 * j
    · simp [h1]
    · have h2 : ¬ i - 8 * j < 8 := by omega
      simp [h1, h2, BitVec.getLsbD_of_ge v (i - 8 * j) (by omega)]

theorem getLsbD_foldl_setByte (f : Nat → Byte) (b : BitVec 64) (n : Nat) {i : Nat} (hi : i < 64) :
    ((List.range n).foldl (fun b j => Opt8.setByte b j (f j)) b).getLsbD i =
      if i / 8 < n then (f (i / 8)).getLsbD (i % 8) else b.getLsbD i := by
  induction n with
  | zero => simp
  | succ n ih =>
    rw [List.range_succ, List.foldl_append, List.foldl_cons, List.foldl_nil, getLsbD_setByte _ _ hi, ih]
    by_cases h : i / 8 = n
    · simp [h]
    · by_cases h2 : i / 8 < n
      · simp [h, h2, show i / 8 < n + 1 by omega]
      · simp [h, h2, show ¬ i / 8 < n + 1 by omega]

/-! ## opt_8 -/

namespace Opt8

/-- What `xmul` adds to the lane. -/
private def contrib (byteRol bitRol i : Nat) (a : BitVec 64) : BitVec 64 :=
  (((byteOf a i).setWidth 16 * (1#16 <<< bitRol)).setWidth 8).setWidth 64 <<< (8 * ((byteRol + i) &&& 7)) ^^^
  (((byteOf a i).setWidth 16 * (1#16 <<< bitRol)) >>> 8 |>.setWidth 8).setWidth 64 <<< (8 * ((byteRol + i + 1) &&& 7))

private theorem contrib_xor (byteRol bitRol i : Nat) (x y : BitVec 64) :
    contrib byteRol bitRol i (x ^^^ y) = contrib byteRol bitRol i x ^^^ contrib byteRol bitRol i y := by
  have ht : ∀ a : BitVec 16, a * (1#16 <<< bitRol) = a <<< bitRol := fun a => by
    rw [← BitVec.twoPow_eq, BitVec.mul_twoPow_eq_shiftLeft]
  simp only [contrib, ht, byteOf, BitVec.ushiftRight_xor_distrib, BitVec.setWidth_xor, BitVec.shiftLeft_xor_distrib]
  ac_rfl

private theorem foldl_contrib (a b : Nat) (l : List Nat) (x y u v : BitVec 64) :
    l.foldl (fun t i => xmul (x ^^^ y) a b i t) (u ^^^ v) =
      l.foldl (fun t i => xmul x a b i t) u ^^^ l.foldl (fun t i => xmul y a b i t) v := by
  have hx : ∀ x i t, xmul x a b i t = t ^^^ contrib a b i x := fun x i t => by
    simp only [xmul, xorByte, contrib, BitVec.xor_assoc]; rfl
  induction l generalizing u v with
  | nil => rfl
  | cons i l ih =>
    simp only [List.foldl_cons]
    rw [← ih]
    congr 1
    simp only [hx, contrib_xor]
    ac_rfl

theorem ror_xor (n : Nat) (x y : BitVec 64) : ror (x ^^^ y) n = ror x n ^^^ ror y n := by
  have := foldl_contrib ((64 - n) >>> 3) ((64 - n) &&& 7) (List.range 8) x y 0 0
  have z : (0 : BitVec 64) ^^^ 0 = 0 := rfl
  rw [z] at this
  exact this

/-- The amounts of rotation in the linear layer. -/
abbrev Amount (n : Nat) : Prop := n ∈ [1, 5, 7, 9, 10, 19, 22, 34, 39]

theorem ror_eq (n : Nat) (h : Amount n) (x : BitVec 64) : ror x n = x.rotateRight n := by
  have hn : n < 64 := by
    have : ∀ m ∈ [1, 5, 7, 9, 10, 19, 22, 34, 39], m < 64 := by decide
    exact this n h
  refine Bits.xor_ext (f := fun x => ror x n) (g := fun x => x.rotateRight n) (ror_xor n)
    (fun x y => Opt64.rotr_xor x y n hn) ?_ x
  have : ∀ n ∈ [1, 5, 7, 9, 10, 19, 22, 34, 39], ∀ i : Fin 64,
      ror (BitVec.twoPow 64 i) n = (BitVec.twoPow 64 i).rotateRight n := by decide +kernel
  exact this n h

/-- `NONLINEAR_LAYER` on whole words. -/
private def nlWords (s : State) : State × BitVec 64 :=
  let t0 := s.x1 ^^^ s.x2
  let t1 := s.x0 ^^^ s.x4
  let t2 := s.x3 ^^^ s.x4
  (⟨s.x0 ||| t2, (s.x1 &&& ~~~ t1) ^^^ t2, ((s.x2 ^^^ t1) ||| s.x1) ^^^ t2, ((s.x3 ^^^ s.x1) ||| t0) ^^^ t1,
    (s.x3 ||| ~~~ s.x4) ^^^ t0⟩, (s.x0 ||| t2) ^^^ t0)

/-- The words that agree with `y` on the bytes below `n` and with `x` above. -/
private structure Upto (n : Nat) (x y r : BitVec 64) : Prop where
  bit : ∀ i, i < 64 → r.getLsbD i = if i / 8 < n then y.getLsbD i else x.getLsbD i

private theorem upto_step {n : Nat} (_ : n < 8) {x y r : BitVec 64} {v : Byte} (h : Upto n x y r)
    (hv : ∀ k, k < 8 → v.getLsbD k = y.getLsbD (8 * n + k)) : Upto (n + 1) x y (setByte r n v) := by
  constructor
  intro i hi
  rw [getLsbD_setByte _ _ hi, h.bit i hi]
  by_cases h1 : i / 8 = n
  · rw [if_pos h1, hv _ (by omega), if_pos (by omega)]
    congr 1; omega
  · rw [if_neg h1]
    by_cases h2 : i / 8 < n
    · rw [if_pos h2, if_pos (by omega)]
    · rw [if_neg h2, if_neg (by omega)]

private theorem foldl_nonlinear (s : State) (n : Nat) : n ≤ 8 →
    let r := (List.range n).foldl nonlinear (s, 0)
    Upto n s.x0 (nlWords s).1.x0 r.1.x0 ∧ Upto n s.x1 (nlWords s).1.x1 r.1.x1 ∧ Upto n s.x2 (nlWords s).1.x2 r.1.x2 ∧
    Upto n s.x3 (nlWords s).1.x3 r.1.x3 ∧ Upto n s.x4 (nlWords s).1.x4 r.1.x4 ∧ Upto n 0 (nlWords s).2 r.2 := by
  intro hn
  induction n with
  | zero => refine ⟨⟨?_⟩, ⟨?_⟩, ⟨?_⟩, ⟨?_⟩, ⟨?_⟩, ⟨?_⟩⟩ <;> intro i _ <;> simp
  | succ n ih =>
    obtain ⟨h0, h1, h2, h3, h4, h5⟩ := ih (by omega)
    simp only [List.range_succ, List.foldl_append, List.foldl_cons, List.foldl_nil]
    generalize (List.range n).foldl nonlinear (s, 0) = r at *
    have old : ∀ {x y r : BitVec 64}, Upto n x y r → ∀ {k}, k < 8 → r.getLsbD (8 * n + k) = x.getLsbD (8 * n + k) := by
      intro x y r h k hk
      rw [h.bit _ (by omega), if_neg (by omega)]
    refine ⟨upto_step (by omega) h0 ?_, upto_step (by omega) h1 ?_, upto_step (by omega) h2 ?_, upto_step (by omega) h3 ?_,
      upto_step (by omega) h4 ?_, upto_step (by omega) h5 ?_⟩ <;> intro k hk <;>
      simp only [nlWords, BitVec.getLsbD_xor, BitVec.getLsbD_and, BitVec.getLsbD_or, BitVec.getLsbD_not,
        getLsbD_byteOf _ _ hk, old h0 hk, old h1 hk, old h2 hk, old h3 hk, old h4 hk, hk,
        show 8 * n + k < 64 by omega]

private theorem foldl_nonlinear_eq (s : State) : (List.range 8).foldl nonlinear (s, 0) = nlWords s := by
  obtain ⟨h0, h1, h2, h3, h4, h5⟩ := foldl_nonlinear s 8 (by omega)
  generalize (List.range 8).foldl nonlinear (s, 0) = r at *
  have all : ∀ {x y r : BitVec 64}, Upto 8 x y r → r = y := by
    intro x y r h
    apply BitVec.eq_of_getLsbD_eq; intro i hi
    rw [h.bit i hi, if_pos (by omega)]
  obtain ⟨⟨r0, r1, r2, r3, r4⟩, r5⟩ := r
  rw [show nlWords s = (⟨(nlWords s).1.x0, (nlWords s).1.x1, (nlWords s).1.x2, (nlWords s).1.x3, (nlWords s).1.x4⟩,
    (nlWords s).2) from rfl]
  simp only at h0 h1 h2 h3 h4 h5
  rw [all h0, all h1, all h2, all h3, all h4, all h5]

theorem byteRound : ByteRoundOK round := by
  intro S c
  have e0 : xorByte S.x2 0 c = S.x2 ^^^ c.setWidth 64 := by simp [xorByte]
  simp only [round, foldl_nonlinear_eq, e0]
  rw [sub_eq]
  generalize S.x2 ^^^ c.setWidth 64 = y2
  have key : subSliced ⟨S.x0, S.x1, y2, S.x3, S.x4⟩ =
      ⟨(nlWords ⟨S.x0, S.x1, y2, S.x3, S.x4⟩).1.x2, (nlWords ⟨S.x0, S.x1, y2, S.x3, S.x4⟩).1.x3,
       (nlWords ⟨S.x0, S.x1, y2, S.x3, S.x4⟩).1.x4, (nlWords ⟨S.x0, S.x1, y2, S.x3, S.x4⟩).2,
       (nlWords ⟨S.x0, S.x1, y2, S.x3, S.x4⟩).1.x1⟩ := by
    apply State.ext' <;> apply BitVec.eq_of_getLsbD_eq <;> intro i hi <;>
    simp only [subSliced, nlWords, BitVec.getLsbD_xor, BitVec.getLsbD_and, BitVec.getLsbD_or, BitVec.getLsbD_not, hi,
      decide_true, Bool.true_and] <;>
    generalize S.x0.getLsbD i = a0 <;> generalize S.x1.getLsbD i = a1 <;> generalize y2.getLsbD i = a2 <;>
    generalize S.x3.getLsbD i = a3 <;> generalize S.x4.getLsbD i = a4 <;>
    revert a0 a1 a2 a3 a4 <;> decide
  rw [key]
  generalize nlWords ⟨S.x0, S.x1, y2, S.x3, S.x4⟩ = r
  simp only [linear, lin, sigma, ror_eq (28 - 19) (by decide), ror_eq 19 (by decide),
    ror_eq (61 - 39) (by decide), ror_eq 39 (by decide), ror_eq (6 - 1) (by decide), ror_eq 1 (by decide),
    ror_eq (17 - 10) (by decide), ror_eq 10 (by decide), ror_eq (41 - 7) (by decide),
    Opt64.two_rotr _ _ _ (show 19 + (28 - 19) < 64 by omega), Opt64.two_rotr _ _ _ (show 39 + (61 - 39) < 64 by omega),
    Opt64.two_rotr _ _ _ (show 1 + (6 - 1) < 64 by omega), Opt64.two_rotr _ _ _ (show 10 + (17 - 10) < 64 by omega),
    Opt64.two_rotr _ _ _ (show 7 + (41 - 7) < 64 by omega)]
  congr 1
  ac_rfl

theorem repOK : RepOK prims id p := repOK_viaProunds wordOK_id fun _ hn => runs_switchRounds byteRound.consts hn
theorem repOKTiny : RepOK primsTiny id p := repOK_viaProunds wordOK_id fun _ hn => runs_tinyRounds byteRound hn

end Opt8

/-! ## Representations that permute the bits of a lane -/

/-- `φ` permutes the bits of a lane, and `ror` rotates lanes stored in this form. -/
structure BitRep (φ : BitVec 64 → BitVec 64) (ror : BitVec 64 → Nat → BitVec 64) : Prop where
  xor : ∀ x y, φ (x ^^^ y) = φ x ^^^ φ y
  and : ∀ x y, φ (x &&& y) = φ x &&& φ y
  not : ∀ x, φ (~~~ x) = ~~~ φ x
  ror : ∀ x n, n ≤ 39 → ror (φ x) n = φ (x.rotateRight n)

theorem BitRep.roundWith {φ : BitVec 64 → BitVec 64} {ror : BitVec 64 → Nat → BitVec 64} (h : BitRep φ ror) {i : Nat}
    {k : BitVec 64} (hk : k = φ (rc i)) : RoundOK (Opt64.roundWith ror) φ i k := by
  intro S
  rw [Ascon.round, ← Opt64.roundWith_spec, hk]
  simp only [Opt64.roundWith, rep, ← h.xor, ← h.and, ← h.not, h.ror _ 1 (by omega), h.ror _ (6 - 1) (by omega),
    h.ror _ 7 (by omega), h.ror _ (41 - 7) (by omega), h.ror _ 10 (by omega), h.ror _ 19 (by omega),
    h.ror _ (28 - 19) (by omega), h.ror _ 39 (by omega), h.ror _ (61 - 39) (by omega)]

/-! ## bi_8 -/

namespace Bi8

/-- The bits of a lane as an 8 by 8 matrix, transposed. -/
def φ (x : BitVec 64) : BitVec 64 := Bits.perm 64 (fun i => 8 * (i % 8) + i / 8) x

theorem interleave8_eq (x : BitVec 64) : interleave8 x = φ x := by
  have h : ∀ m m' m'' : BitVec 64, ∀ s s' : Nat, ∀ x y : BitVec 64,
      ((x ||| y) &&& m) ||| (((x ||| y) &&& m') <<< s) ||| (((x ||| y) >>> s') &&& m'') =
      ((x &&& m) ||| ((x &&& m') <<< s) ||| ((x >>> s') &&& m'')) |||
      ((y &&& m) ||| ((y &&& m') <<< s) ||| ((y >>> s') &&& m'')) := by
    intro m m' m'' s s' x y
    apply BitVec.eq_of_getLsbD_eq; intro i hi
    simp only [BitVec.getLsbD_or, BitVec.getLsbD_and, BitVec.getLsbD_shiftLeft, BitVec.getLsbD_ushiftRight,
      Bool.and_or_distrib_left, Bool.and_or_distrib_right]
    ac_rfl
  refine Bits.or_ext (f := interleave8) (g := φ) ?_ (Bits.perm_or _) (by decide +kernel) (by decide +kernel) x
  intro x y
  simp only [interleave8, il1, il2, il3, h]

theorem getLsbD_ror8 (a : Byte) {n k : Nat} (hn : n < 8) (hk : k < 8) : (ror8 a n).getLsbD k = a.getLsbD ((k + n) % 8) := by
  simp only [ror8, BitVec.getLsbD_setWidth, BitVec.getLsbD_or, BitVec.getLsbD_ushiftRight, BitVec.getLsbD_shiftLeft, hk,
    decide_true, Bool.true_and]
  by_cases h : k < 8 - n
  · simp only [h, show n + k < 32 by omega, show k < 32 by omega, decide_true, Bool.true_and, Bool.not_true, Bool.false_and,
      Bool.or_false]
    congr 1; omega
  · simp only [h, show n + k < 32 by omega, show k - (8 - n) < 32 by omega, show k < 32 by omega, decide_true, decide_false,
      Bool.true_and, Bool.not_false]
    rw [BitVec.getLsbD_of_ge a (n + k) (by omega), Bool.false_or]
    congr 1; omega

theorem bitRep : BitRep φ ror where
  xor := Bits.perm_xor _
  and := Bits.perm_and _
  not := Bits.perm_not (fun i _ => by omega)
  ror x n h := by
    rw [Bits.rotateRight_eq_perm (by omega)]
    apply BitVec.eq_of_getLsbD_eq; intro i hi
    rw [φ, φ, Bits.perm_perm (fun i _ => by omega), Bits.getLsbD_perm _ _ hi, Bi8.ror, getLsbD_foldl_setByte _ _ _ hi,
      if_pos (by omega)]
    have e1 : (n + i / 8) &&& 7 = (n + i / 8) % 8 := Nat.and_two_pow_sub_one_eq_mod _ 3
    have e2 : (n + i / 8) >>> 3 = (n + i / 8) / 8 := Nat.shiftRight_eq_div_pow _ 3
    rw [e1, e2, getLsbD_ror8 _ (by omega) (by omega), getLsbD_byteOf _ _ (by omega), Bits.getLsbD_perm _ _ (by omega)]
    congr 1
    have arith : ∀ k m : Nat, 8 * ((8 * (m % 8) + (k + m / 8) % 8) % 8) + (8 * (m % 8) + (k + m / 8) % 8) / 8 =
        (8 * k + m) % 64 := by
      intro k m
      have h1 : (8 * (m % 8) + (k + m / 8) % 8) % 8 = (k + m / 8) % 8 := by omega
      have h2 : (8 * (m % 8) + (k + m / 8) % 8) / 8 = m % 8 := by omega
      rw [h1, h2]; omega
    rw [arith]
    congr 1; omega

theorem φ_φ (x : BitVec 64) : φ (φ x) = x := by
  rw [φ, φ, Bits.perm_perm (fun i _ => by omega)]
  apply Bits.perm_id
  intro i _; omega

theorem wordOK : WordOK (fun x => interleave8 (u64big x)) (fun x => u64big (interleave8 x)) interleave8 φ where
  toWord B _ := by simp only [interleave8_eq, u64big_le64]
  fromWord w := by rw [interleave8_eq, φ_φ, toLe64_u64big]
  toBI := interleave8_eq
  xor := bitRep.xor
  top := by decide +kernel
  one := by decide +kernel

/-- The S-box coding of bi_8 is the one of opt_64. -/
theorem round_eq : round = Opt64.roundWith ror := by
  funext S c
  simp only [round, Opt64.roundWith]
  have e4 : ∀ s4 s1 s0 s2 : BitVec 64, s4 ^^^ (s1 &&& ~~~ (s0 ^^^ (s2 &&& ~~~ s1))) = s4 ^^^ (~~~ s0 &&& s1) := by
    intro s4 s1 s0 s2
    apply BitVec.eq_of_getLsbD_eq; intro i hi
    simp only [BitVec.getLsbD_xor, BitVec.getLsbD_and, BitVec.getLsbD_not, hi, decide_true, Bool.true_and]
    generalize s4.getLsbD i = a
    generalize s1.getLsbD i = b
    generalize s0.getLsbD i = c
    generalize s2.getLsbD i = d
    revert a b c d; decide
  simp only [e4, BitVec.and_comm (~~~ _)]

theorem consts : ConstsOK round φ k12 k6 k1 where
  h12 := by
    rw [round_eq]
    exact ⟨bitRep.roundWith (by decide +kernel), bitRep.roundWith (by decide +kernel), bitRep.roundWith (by decide +kernel),
      bitRep.roundWith (by decide +kernel), bitRep.roundWith (by decide +kernel), bitRep.roundWith (by decide +kernel), trivial⟩
  h6 := by
    rw [round_eq]
    exact ⟨bitRep.roundWith (by decide +kernel), bitRep.roundWith (by decide +kernel), bitRep.roundWith (by decide +kernel),
      bitRep.roundWith (by decide +kernel), bitRep.roundWith (by decide +kernel), trivial⟩
  h1 := by
    rw [round_eq]
    exact ⟨bitRep.roundWith (by decide +kernel), trivial⟩
  l12 := rfl
  l6 := rfl
  l1 := rfl

theorem repOK : RepOK prims φ p := repOK_viaProunds wordOK fun _ hn => runs_switchRounds consts hn

end Bi8

/-! ## bi_32 -/

namespace Bi32

/-- Even bits in the lower word, odd bits in the upper one. -/
def φ (x : BitVec 64) : BitVec 64 := Bits.perm 64 (fun i => if i < 32 then 2 * i else 2 * (i - 32) + 1) x

theorem xor_and (x y m : BitVec 32) : (x ^^^ y) &&& m = (x &&& m) ^^^ (y &&& m) := by
  apply BitVec.eq_of_getLsbD_eq; intro i hi
  simp only [BitVec.getLsbD_xor, BitVec.getLsbD_and, Bool.and_xor_distrib_right]

theorem or_and (x y m : BitVec 32) : (x ||| y) &&& m = (x &&& m) ||| (y &&& m) := by
  apply BitVec.eq_of_getLsbD_eq; intro i hi
  simp only [BitVec.getLsbD_or, BitVec.getLsbD_and, Bool.and_or_distrib_right]

theorem dswap_xor (n : Nat) (m x y : BitVec 32) : dswap n m (x ^^^ y) = dswap n m x ^^^ dswap n m y := by
  simp only [dswap, BitVec.ushiftRight_xor_distrib, BitVec.shiftLeft_xor_distrib, xor_and]
  ac_rfl

theorem shuffle_eq (x : BitVec 32) : shuffle x = Bits.perm 32 (fun i => if i < 16 then 2 * i else 2 * (i - 16) + 1) x := by
  refine Bits.xor_ext (f := shuffle) (g := Bits.perm 32 _) ?_ (Bits.perm_xor _) (by decide +kernel) x
  intro x y
  simp only [shuffle, dswap_xor]

theorem unshuffle_eq (x : BitVec 32) : unshuffle x = Bits.perm 32 (fun i => i / 2 + 16 * (i % 2)) x := by
  refine Bits.xor_ext (f := unshuffle) (g := Bits.perm 32 _) ?_ (Bits.perm_xor _) (by decide +kernel) x
  intro x y
  simp only [unshuffle, dswap_xor]

theorem w0_or (x y : BitVec 64) : w0 (x ||| y) = w0 x ||| w0 y := by simp [w0, BitVec.setWidth_or]
theorem w1_or (x y : BitVec 64) : w1 (x ||| y) = w1 x ||| w1 y := by
  simp only [w1, BitVec.ushiftRight_or_distrib, BitVec.setWidth_or]

theorem getLsbD_lane (lo hi : BitVec 32) (i : Nat) :
    (lane lo hi).getLsbD i = if i < 32 then lo.getLsbD i else hi.getLsbD (i - 32) := by
  rw [lane, BitVec.getLsbD_append]

theorem lane_or (a b c d : BitVec 32) : lane (a ||| b) (c ||| d) = lane a c ||| lane b d := by
  apply BitVec.eq_of_getLsbD_eq; intro i hi
  simp only [BitVec.getLsbD_or, getLsbD_lane]
  split <;> rfl

theorem or4 {n : Nat} (a b c d : BitVec n) : (a ||| b) ||| (c ||| d) = (a ||| c) ||| (b ||| d) := by ac_rfl

theorem toBI_eq (x : BitVec 64) : toBI x = φ x := by
  refine Bits.or_ext (f := toBI) (g := φ) ?_ (Bits.perm_or _) (by decide +kernel) (by decide +kernel) x
  intro x y
  simp only [toBI, shuffle_eq, w0_or, w1_or, Bits.perm_or, ← lane_or, or_and, BitVec.ushiftRight_or_distrib,
    BitVec.shiftLeft_or_distrib]
  generalize Bits.perm 32 _ (w0 x) = a
  generalize Bits.perm 32 _ (w1 x) = b
  generalize Bits.perm 32 _ (w0 y) = c
  generalize Bits.perm 32 _ (w1 y) = d
  congr 1
  · exact or4 _ _ _ _
  · exact or4 _ _ _ _

theorem fromBI_eq (x : BitVec 64) : fromBI x = Bits.perm 64 (fun i => i / 2 + 32 * (i % 2)) x := by
  refine Bits.or_ext (f := fromBI) (g := Bits.perm 64 _) ?_ (Bits.perm_or _) (by decide +kernel) (by decide +kernel) x
  intro x y
  have hA : ((w0 (x ||| y) &&& 0x0000FFFF#32) ||| (w1 (x ||| y) <<< 16)) =
      ((w0 x &&& 0x0000FFFF#32) ||| (w1 x <<< 16)) ||| ((w0 y &&& 0x0000FFFF#32) ||| (w1 y <<< 16)) := by
    rw [w0_or, w1_or, or_and, BitVec.shiftLeft_or_distrib, or4]
  have hB : ((w0 (x ||| y) >>> 16) ||| (w1 (x ||| y) &&& 0xFFFF0000#32)) =
      ((w0 x >>> 16) ||| (w1 x &&& 0xFFFF0000#32)) ||| ((w0 y >>> 16) ||| (w1 y &&& 0xFFFF0000#32)) := by
    rw [w0_or, w1_or, or_and, BitVec.ushiftRight_or_distrib, or4]
  simp only [fromBI, unshuffle_eq]
  rw [hA, hB]
  generalize (w0 x >>> 16 ||| _ : BitVec 32) = a
  generalize (w0 y >>> 16 ||| _ : BitVec 32) = b
  generalize (_ ||| w1 x <<< 16 : BitVec 32) = c
  generalize (_ ||| w1 y <<< 16 : BitVec 32) = d
  rw [Bits.perm_or, Bits.perm_or, BitVec.setWidth_or, BitVec.setWidth_or, BitVec.shiftLeft_or_distrib, or4]

theorem fromBI_φ (x : BitVec 64) : fromBI (φ x) = x := by
  rw [fromBI_eq, φ, Bits.perm_perm (fun i _ => by omega)]
  apply Bits.perm_id
  intro i _
  by_cases h : i / 2 + 32 * (i % 2) < 32
  · rw [if_pos h]; omega
  · rw [if_neg h]; omega

theorem getLsbD_w0 (x : BitVec 64) {i : Nat} (hi : i < 32) : (w0 x).getLsbD i = x.getLsbD i := by
  rw [w0, BitVec.getLsbD_setWidth]; simp [hi]

theorem getLsbD_w1 (x : BitVec 64) {i : Nat} (hi : i < 32) : (w1 x).getLsbD i = x.getLsbD (32 + i) := by
  rw [w1, BitVec.getLsbD_setWidth, BitVec.getLsbD_ushiftRight]; simp [hi]

theorem getLsbD_ror32 (x : BitVec 32) {n i : Nat} (hn : n < 32) (hi : i < 32) :
    (ror32 x n).getLsbD i = x.getLsbD ((i + n) % 32) := by
  have e : (32 - n) &&& 31 = (32 - n) % 32 := Nat.and_two_pow_sub_one_eq_mod _ 5
  simp only [ror32, e, BitVec.getLsbD_or, BitVec.getLsbD_ushiftRight, BitVec.getLsbD_shiftLeft, hi, decide_true, Bool.true_and]
  by_cases h0 : n = 0
  · subst h0; simp [show i % 32 = i by omega]
  rw [show (32 - n) % 32 = 32 - n by omega]
  by_cases h : i < 32 - n
  · simp only [h, decide_true, Bool.not_true, Bool.false_and, Bool.or_false]
    congr 1; omega
  · simp only [h, decide_false, Bool.not_false, Bool.true_and]
    rw [BitVec.getLsbD_of_ge x (n + i) (by omega), Bool.false_or]
    congr 1; omega

/-- `ror32` in terms of the rotation of bit vectors. -/
theorem ror32_eq (x : BitVec 32) {n : Nat} (hn : n < 32) : ror32 x n = x.rotateRight n := by
  apply BitVec.eq_of_getLsbD_eq; intro i hi
  rw [getLsbD_ror32 x hn hi, BitVec.getLsbD_rotateRight, Nat.mod_eq_of_lt hn]
  by_cases h2 : i < 32 - n
  · simp only [h2, decide_true, cond_true]; rw [Nat.mod_eq_of_lt (by omega), Nat.add_comm]
  · simp only [h2, decide_false, cond_false, hi, decide_true, Bool.true_and]
    rw [show i - (32 - n) = (i + n) % 32 by omega]

theorem getLsbD_φ (x : BitVec 64) {i : Nat} (hi : i < 64) :
    (φ x).getLsbD i = if i < 32 then x.getLsbD (2 * i) else x.getLsbD (2 * (i - 32) + 1) := by
  rw [φ, Bits.getLsbD_perm _ _ hi]; split <;> rfl

theorem bitRep : BitRep φ ror where
  xor := Bits.perm_xor _
  and := Bits.perm_and _
  not := Bits.perm_not (fun i _ => by split <;> omega)
  ror x n h := by
    rw [Bits.rotateRight_eq_perm (by omega)]
    apply BitVec.eq_of_getLsbD_eq; intro i hi
    rw [getLsbD_φ _ hi, ror, getLsbD_lane]
    by_cases h1 : i < 32
    · rw [if_pos h1, if_pos h1, Bits.getLsbD_perm _ _ (by omega)]
      by_cases h2 : n % 2 ≠ 0
      · rw [if_pos h2, getLsbD_ror32 _ (by omega) h1, getLsbD_w1 _ (by omega), getLsbD_φ _ (by omega), if_neg (by omega)]
        congr 1; omega
      · rw [if_neg h2, getLsbD_ror32 _ (by omega) h1, getLsbD_w0 _ (by omega), getLsbD_φ _ (by omega), if_pos (by omega)]
        congr 1; omega
    · rw [if_neg h1, if_neg h1, Bits.getLsbD_perm _ _ (by omega)]
      by_cases h2 : n % 2 ≠ 0
      · rw [if_pos h2, getLsbD_ror32 _ (by omega) (by omega), getLsbD_w0 _ (by omega), getLsbD_φ _ (by omega),
          if_pos (by omega)]
        congr 1; omega
      · rw [if_neg h2, getLsbD_ror32 _ (by omega) (by omega), getLsbD_w1 _ (by omega), getLsbD_φ _ (by omega),
          if_neg (by omega)]
        congr 1; omega

theorem wordOK : WordOK toWord fromWord toBI φ where
  toWord B _ := by rw [toWord, toBI_eq, u64big_le64]
  fromWord w := by rw [fromWord, fromBI_φ, toLe64_u64big]
  toBI := toBI_eq
  xor := bitRep.xor
  top := by decide +kernel
  one := by decide +kernel

/-- The twelve constants of the file are the round constants in interleaved form. -/
theorem constsOK {round : State → BitVec 64 → State} (h : ∀ i k, k = φ (rc i) → RoundOK round φ i k) :
    ConstsOK round φ k12 k6 k1 where
  h12 := ⟨h 0 _ (by decide +kernel), h 1 _ (by decide +kernel), h 2 _ (by decide +kernel), h 3 _ (by decide +kernel),
    h 4 _ (by decide +kernel), h 5 _ (by decide +kernel), trivial⟩
  h6 := ⟨h 6 _ (by decide +kernel), h 7 _ (by decide +kernel), h 8 _ (by decide +kernel), h 9 _ (by decide +kernel),
    h 10 _ (by decide +kernel), trivial⟩
  h1 := ⟨h 11 _ (by decide +kernel), trivial⟩
  l12 := rfl
  l6 := rfl
  l1 := rfl

theorem consts : ConstsOK round φ k12 k6 k1 := constsOK fun _ _ h => bitRep.roundWith h

theorem repOK : RepOK prims φ p := repOK_unrolled wordOK consts
theorem repOKCompact : RepOK primsCompact φ p := repOK_viaProunds wordOK fun _ hn => runs_switchRounds consts hn

end Bi32

end Model.Opt
