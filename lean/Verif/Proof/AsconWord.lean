import Verif.Proof.AsconSpec
import Verif.Proof.Mem
/-!
# ISAP-A on words instead of bytes
-/

namespace Spec

theorem xorAt_append_left (A R : List Byte) {off : Nat} {B : List Byte} (h : off + B.length ≤ A.length) :
    xorAt (A ++ R) off B = xorAt A off B ++ R := by
  apply List.ext_getElem
  · simp
  · intro i h1 h2
    simp only [getElem_xorAt, List.getElem_append, length_xorAt]
    by_cases hi : i < A.length
    · simp [hi]
    · simp [hi, show ¬ (i < off + B.length) by omega]

theorem xorAt_append_right (A R : List Byte) {off : Nat} {B : List Byte} (h : A.length ≤ off) :
    xorAt (A ++ R) off B = A ++ xorAt R (off - A.length) B := by
  apply List.ext_getElem
  · simp
  · intro i h1 h2
    simp only [getElem_xorAt, List.getElem_append]
    by_cases hi : i < A.length
    · simp [hi, show ¬ (off ≤ i) by omega]
    · simp only [hi, dif_neg, not_false_iff]
      by_cases hc : off ≤ i ∧ i < off + B.length
      · rw [if_pos hc, if_pos (by omega)]
        congr 2; omega
      · rw [if_neg hc, if_neg (by omega)]

theorem ofBe64_append_zeros (B : List Byte) (n : Nat) : ofBe64 (B ++ zeros n) = ofBe64 B := by
  unfold ofBe64
  congr 1
  funext i
  congr 1
  simp only [List.getD, List.getElem?_append, zeros, List.getElem?_replicate]
  split
  · rfl
  · rename_i h
    rw [List.getElem?_eq_none (l := B) (by omega)]
    split <;> rfl

/-- One more byte of a big-endian word. -/
theorem ofBe64_snoc {B : List Byte} (d : Byte) (h : B.length < 8) :
    ofBe64 (B ++ [d]) = ofBe64 B ^^^ (d.setWidth 64 <<< (8 * (7 - B.length))) := by
  apply BitVec.eq_of_getLsbD_eq
  intro i hi
  rw [BitVec.getLsbD_xor, BitVec.getLsbD_shiftLeft, BitVec.getLsbD_setWidth]
  simp only [ofBe64, getLsbD_ofBits, hi, decide_true, Bool.true_and]
  have hg : (B ++ [d]).getD (7 - i / 8) 0 = if 7 - i / 8 = B.length then d else B.getD (7 - i / 8) 0 := by
    simp only [List.getD, List.getElem?_append]
    by_cases h1 : 7 - i / 8 < B.length
    · rw [if_pos h1, if_neg (by omega)]
    · rw [if_neg h1]
      by_cases h2 : 7 - i / 8 = B.length
      · rw [if_pos h2, h2]; simp
      · rw [if_neg h2, List.getElem?_eq_none (by simp; omega), List.getElem?_eq_none (l := B) (by omega)]
  rw [hg]
  by_cases h2 : 7 - i / 8 = B.length
  · rw [if_pos h2]
    have hb : B.getD (7 - i / 8) 0 = 0 := by
      rw [List.getD, List.getElem?_eq_none (by omega)]; rfl
    rw [hb]
    have hx : i - 8 * (7 - B.length) = i % 8 := by omega
    rw [hx]
    simp [show ¬ (i < 8 * (7 - B.length)) by omega, show i % 8 < 64 by omega]
  · rw [if_neg h2]
    by_cases h3 : i < 8 * (7 - B.length)
    · simp [h3]
    · have : 8 ≤ i - 8 * (7 - B.length) := by omega
      rw [BitVec.getLsbD_of_ge d _ this]; simp

theorem ofBe64_nil : ofBe64 [] = 0 := by
  apply BitVec.eq_of_getLsbD_eq
  intro i hi
  simp [ofBe64, getLsbD_ofBits]

theorem ofBe64_single (d : Byte) : ofBe64 [d] = d.setWidth 64 <<< 56 := by
  have := ofBe64_snoc (B := []) d (by simp)
  simpa [ofBe64_nil] using this

theorem ofBe64_drop_take (b : List Byte) (k : Nat) : ofBe64 ((b.drop k).take 8) = ofBe64 (b.drop k) := ofBe64_take _

/-- Xor of a string into a word. -/
theorem xorAt_be64 (x : BitVec 64) {B : List Byte} (h : B.length ≤ 8) : xorAt (be64 x) 0 B = be64 (x ^^^ ofBe64 B) := by
  have e : ofBe64 B = ofBe64 (B ++ zeros (8 - B.length)) := (ofBe64_append_zeros B _).symm
  have hl : (B ++ zeros (8 - B.length)).length = 8 := by simp [zeros]; omega
  rw [e, be64_xor, be64_ofBe64 _ (by omega), List.take_of_length_le (by omega), ← xorAt_append_zeros _ _ B (8 - B.length),
    ← xorFront_eq (by simp [hl]), xorFront, hl, List.take_of_length_le (by simp), List.drop_eq_nil_of_le (by simp),
    List.append_nil]

namespace Ascon

theorem xorAt_toBytes (S : State) {B : List Byte} (h : B.length ≤ 8) :
    xorAt (toBytes S) 0 B = toBytes { S with x0 := S.x0 ^^^ ofBe64 B } := by
  simp only [toBytes, List.append_assoc]
  rw [xorAt_append_left _ _ (by simpa using h), xorAt_be64 _ h]

theorem xorAt_last (S : State) : xorAt (toBytes S) 39 [0x01] = toBytes { S with x4 := S.x4 ^^^ 1 } := by
  simp only [toBytes]
  rw [xorAt_append_right _ _ (by simp)]
  congr 1
  simp only [List.length_append, length_be64]
  have h1 : ofBe64 (zeros 7 ++ [1]) = 1 := by decide +kernel
  have := xorAt_be64 S.x4 (B := zeros 7 ++ [1]) (by decide)
  rw [h1] at this
  rw [← this, ← xorAt_append, xorAt_zeros]
  rfl

theorem take16 (S : State) : (toBytes S).take 16 = be64 S.x0 ++ be64 S.x1 := by
  simp only [toBytes, List.append_assoc]
  rw [← List.append_assoc, List.take_left' (by simp)]

theorem drop16 (S : State) : (toBytes S).drop 16 = be64 S.x2 ++ be64 S.x3 ++ be64 S.x4 := by
  simp only [toBytes, List.append_assoc]
  rw [← List.append_assoc, List.drop_left' (by simp)]

theorem take24 (S : State) : (toBytes S).take 24 = be64 S.x0 ++ be64 S.x1 ++ be64 S.x2 := by
  simp only [toBytes]
  rw [List.append_assoc, List.take_left' (by simp)]

theorem take8 (S : State) : (toBytes S).take 8 = be64 S.x0 := by
  simp only [toBytes, List.append_assoc]
  rw [List.take_left' (by simp)]

theorem toBytes_zeros : be64 0 ++ be64 0 = zeros 16 := by decide +kernel

end Ascon

open Ascon

/-- `P` is ISAP over a 40-byte state with the permutations `q n` on five 64-bit words. -/
structure IsAscon (q : Nat → State → State) (P : Params) : Prop where
  n : P.n = 40
  r : P.r = 8
  perm : P.perm = fun n b => toBytes (q n (ofBytes b))

namespace IsAscon
variable {P : Params} {q : Nat → State → State}

theorem wf (A : IsAscon q P) : P.Wf where
  r_pos := by rw [A.r]; omega
  r_lt := by rw [A.r, A.n]; omega
  n_ge := by rw [A.n]; omega
  perm_len k S _ := by rw [A.perm, A.n]; exact length_toBytes _

theorem pH (A : IsAscon q P) (S : State) : P.pH (toBytes S) = toBytes (q P.sH S) := by
  rw [Params.pH, A.perm]; simp only [ofBytes_toBytes]
theorem pB (A : IsAscon q P) (S : State) : P.pB (toBytes S) = toBytes (q P.sB S) := by
  rw [Params.pB, A.perm]; simp only [ofBytes_toBytes]
theorem pE (A : IsAscon q P) (S : State) : P.pE (toBytes S) = toBytes (q P.sE S) := by
  rw [Params.pE, A.perm]; simp only [ofBytes_toBytes]
theorem pK (A : IsAscon q P) (S : State) : P.pK (toBytes S) = toBytes (q P.sK S) := by
  rw [Params.pK, A.perm]; simp only [ofBytes_toBytes]

end IsAscon

/-- Absorb the first `q` full blocks of `X`. -/
def absW (q : Nat → State → State) (n : Nat) (S : State) (X : List Byte) : Nat → State
  | 0 => S
  | i + 1 => q n { absW q n S X i with x0 := (absW q n S X i).x0 ^^^ ofBe64 (blk 8 X i) }

/-- Absorb `X` with padding. -/
def absorbW (q : Nat → State → State) (n : Nat) (S : State) (X : List Byte) : State :=
  q n { absW q n S X (X.length / 8) with
    x0 := (absW q n S X (X.length / 8)).x0 ^^^ ofBe64 (X.drop (X.length / 8 * 8) ++ [0x80]) }

/-- Xor a bit into the first bit of the state. -/
def xorBit (S : State) (b : Bool) : State := { S with x0 := S.x0 ^^^ ((Params.bitByte b).setWidth 64 <<< 56) }

/-- Bit `i` of the string `Y`. -/
def ybit (Y : List Byte) (i : Nat) : Bool := (Y.getD (i / 8) 0).getLsbD (7 - i % 8)

/-- The state of ISAP_RK after `i` bits. -/
def rkSt (q : Nat → State → State) (nB : Nat) (S : State) (Y : List Byte) : Nat → State
  | 0 => S
  | i + 1 => q nB (xorBit (rkSt q nB S Y i) (ybit Y i))

/-- `K ‖ IV ‖ 0*` -/
def initW (K iv : List Byte) : State := ⟨ofBe64 K, ofBe64 (K.drop 8), ofBe64 iv, 0, 0⟩

/-- Final state of ISAP_RK. -/
def rkW (q : Nat → State → State) (P : Params) (K iv Y : List Byte) : State :=
  q P.sK (xorBit (rkSt q P.sB (q P.sK (initW K iv)) Y 127) (ybit Y 127))

/-- State of ISAP_MAC after absorbing the ciphertext. -/
def macSt (q : Nat → State → State) (P : Params) (N A C : List Byte) : State :=
  let S := absorbW q P.sH (q P.sH (initW N (P.iv 1))) A
  absorbW q P.sH { S with x4 := S.x4 ^^^ 1 } C

/-- Final state of ISAP_MAC. -/
def macW (q : Nat → State → State) (P : Params) (K N A C : List Byte) : State :=
  let S := macSt q P N A C
  let R := rkW q P K (P.iv 2) (be64 S.x0 ++ be64 S.x1)
  q P.sH { S with x0 := R.x0, x1 := R.x1 }

/-- Initial state of ISAP_ENC. -/
def encW (q : Nat → State → State) (P : Params) (K N : List Byte) : State :=
  let R := rkW q P K (P.iv 3) N
  ⟨R.x0, R.x1, R.x2, ofBe64 N, ofBe64 (N.drop 8)⟩

namespace IsAscon
variable {P : Params} {q : Nat → State → State}

theorem absFull_words (A : IsAscon q P) (S : State) (X : List Byte) (i : Nat) :
    P.absFull (toBytes S) X i = toBytes (absW q P.sH S X i) := by
  induction i with
  | zero => rfl
  | succ i ih =>
    rw [Params.absFull_succ, ih, A.r, xorAt_toBytes _ (by simp [blk]; omega), A.pH]
    rfl

theorem absorb_words (A : IsAscon q P) (S : State) (X : List Byte) :
    P.absorb (toBytes S) (blocks P.r X) = toBytes (absorbW q P.sH S X) := by
  have hl : (X.drop (X.length / 8 * 8)).length = X.length % 8 := by
    rw [List.length_drop]; omega
  rw [Params.absorb_blocks A.wf X (by rw [length_toBytes, A.n]), A.absFull_words, A.r]
  have := xorAt_append (toBytes (absW q P.sH S X (X.length / 8))) 0 (X.drop (X.length / 8 * 8)) [0x80]
  rw [hl, Nat.zero_add] at this
  rw [this, xorAt_toBytes _ (by simp [hl]; omega), A.pH]
  rfl

theorem initState_words (A : IsAscon q P) {K : List Byte} (hK : K.length = 16) (i : Nat) :
    P.initState K (P.iv i) = toBytes (initW K (P.iv i)) := by
  have hiv : (P.iv i).length = 8 := rfl
  simp only [Params.initState, toBytes, initW, A.n]
  rw [be64_ofBe64 K (by omega), be64_ofBe64 (K.drop 8) (by simp; omega), be64_ofBe64 (P.iv i) (by omega),
    List.take_of_length_le (l := P.iv i) (by omega), List.take_of_length_le (l := K.drop 8) (by simp; omega),
    List.take_append_drop, List.append_assoc, List.append_assoc _ (be64 0), toBytes_zeros]
  rw [List.append_assoc]

theorem rk_words (A : IsAscon q P) {K Y : List Byte} (i z : Nat) (hK : K.length = 16) (hY : Y.length = 16) :
    P.rk K (P.iv i) Y z = (toBytes (rkW q P K (P.iv i) Y)).take z := by
  have hb : ∀ (S : State) b, xorAt (toBytes S) 0 [Params.bitByte b] = toBytes (xorBit S b) := by
    intro S b
    rw [xorAt_toBytes _ (by simp), ofBe64_single]
    rfl
  have key : ∀ n (S : State), (List.range n).foldl (fun S j => P.pB (xorAt S 0 [Params.rkByte Y j])) (toBytes S) =
      toBytes (rkSt q P.sB S Y n) := by
    intro n S
    induction n with
    | zero => rfl
    | succ n ih =>
      rw [List.range_succ, List.foldl_append, ih]
      simp only [List.foldl_cons, List.foldl_nil, Params.rkByte]
      rw [hb, A.pB]
      rfl
  rw [Params.rk_eq A.wf i z hK hY, A.initState_words hK, A.pK, key, hb, A.pK]
  rfl

theorem mac_words (A : IsAscon q P) {K N : List Byte} (AD C : List Byte) (hK : K.length = 16) (hN : N.length = 16) :
    P.mac K N AD C = be64 (macW q P K N AD C).x0 ++ be64 (macW q P K N AD C).x1 := by
  have hdom : ∀ S, P.domSep (toBytes S) = toBytes { S with x4 := S.x4 ^^^ 1 } := by
    intro S
    rw [Params.domSep_eq A.wf (by rw [length_toBytes, A.n]), A.n]
    exact xorAt_last S
  simp only [Params.mac, Params.ivA, Params.ivKA]
  rw [A.initState_words hN, A.pH, A.absorb_words, hdom, A.absorb_words, take16, A.rk_words 2 16 hK (by simp), take16, drop16]
  rw [← take16 (macW q P K N AD C)]
  simp only [macW]
  rw [← A.pH]
  simp only [toBytes, macSt, List.append_assoc]

theorem encInit_words (A : IsAscon q P) {K N : List Byte} (hK : K.length = 16) (hN : N.length = 16) :
    P.encInit K N = toBytes (encW q P K N) := by
  rw [Params.encInit, Params.ivKE, A.rk_words 3 _ hK hN, A.n, take24]
  simp only [toBytes, encW]
  rw [be64_ofBe64 N (by omega), be64_ofBe64 (N.drop 8) (by simp; omega),
    List.take_of_length_le (l := N.drop 8) (by simp; omega), List.append_assoc, List.append_assoc, List.append_assoc,
    List.append_assoc, List.append_assoc, List.take_append_drop]

theorem repeat_words (A : IsAscon q P) (S : State) (i : Nat) :
    Nat.repeat P.pE i (toBytes S) = toBytes (Nat.repeat (q P.sE) i S) := by
  induction i with
  | zero => rfl
  | succ i ih => rw [Nat.repeat, ih, A.pE]; rfl

end IsAscon

/-- A piece of the ciphertext within one block. -/
theorem Params.enc_piece (P : Params) (W : P.Wf) (K N M : List Byte) (hK : K.length = 16) (hN : N.length = 16) {i w : Nat} (hw : w ≤ P.r)
    (h : i * P.r + w ≤ M.length) :
    ((P.enc K N M).drop (i * P.r)).take w =
      xorBytes ((M.drop (i * P.r)).take w) ((Nat.repeat P.pE (i + 1) (P.encInit K N)).take w) := by
  have hlen : ∀ i, (Nat.repeat P.pE i (P.encInit K N)).length = P.n := by
    intro i
    induction i with
    | zero => exact Params.length_encInit W hK hN
    | succ i ih => exact W.len_pE ih
  have := W.r_lt
  have hl1 := hlen (i + 1)
  apply List.ext_getElem
  · simp [length_xorBytes, hl1, Params.enc]; omega
  · intro j h1 h2
    simp only [List.length_take, List.length_drop, Params.enc, List.length_mapIdx] at h1
    simp only [xorBytes, List.getElem_zipWith, List.getElem_take, List.getElem_drop, Params.enc, List.getElem_mapIdx,
      Params.keystream]
    have hj : j < P.r := by omega
    have e1 : (i * P.r + j) / P.r = i := by
      rw [Nat.mul_comm, Nat.mul_add_div W.r_pos, Nat.div_eq_of_lt hj, Nat.add_zero]
    have e2 : (i * P.r + j) % P.r = j := by
      rw [Nat.mul_comm, Nat.mul_add_mod, Nat.mod_eq_of_lt hj]
    rw [e1, e2]
    simp only [List.getD]
    rw [List.getElem?_eq_getElem (by omega)]
    rfl

end Spec
