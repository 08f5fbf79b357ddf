import Verif.Spec.Isap
/-!
# Lemmas about the specification
-/

namespace Spec

/-- Xor `bs` into `S` at byte offset `off` (positions outside `S` are ignored). -/
def xorAt (S : List Byte) (off : Nat) (bs : List Byte) : List Byte :=
  S.mapIdx fun j x => if off ≤ j ∧ j < off + bs.length then x ^^^ bs.getD (j - off) 0 else x

@[simp] theorem length_xorAt (S : List Byte) (off : Nat) (bs : List Byte) : (xorAt S off bs).length = S.length := by
  simp [xorAt]

theorem getElem?_xorAt (S : List Byte) (off : Nat) (bs : List Byte) (j : Nat) :
    (xorAt S off bs)[j]? =
      S[j]?.map fun x => if off ≤ j ∧ j < off + bs.length then x ^^^ bs.getD (j - off) 0 else x := by
  simp [xorAt]

theorem getElem_xorAt (S : List Byte) (off : Nat) (bs : List Byte) (j : Nat) (h : j < (xorAt S off bs).length) :
    (xorAt S off bs)[j] =
      if off ≤ j ∧ j < off + bs.length then (S[j]'(by simpa using h)) ^^^ bs.getD (j - off) 0
      else S[j]'(by simpa using h) := by
  simp [xorAt]

@[simp] theorem xorAt_nil (S : List Byte) (off : Nat) : xorAt S off [] = S := by
  apply List.ext_getElem
  · simp
  · intro i h1 h2
    rw [getElem_xorAt, if_neg]
    simp

/-- Two adjacent xors are one. -/
theorem xorAt_append (S : List Byte) (off : Nat) (as bs : List Byte) :
    xorAt (xorAt S off as) (off + as.length) bs = xorAt S off (as ++ bs) := by
  apply List.ext_getElem
  · simp
  · intro i h1 h2
    simp only [getElem_xorAt, List.length_append]
    by_cases ha : off ≤ i
    · by_cases hb : i < off + as.length
      · rw [if_neg (by omega), if_pos ⟨ha, hb⟩, if_pos (by omega)]
        simp [List.getD, List.getElem?_append_left (show i - off < as.length by omega)]
      · by_cases hc : i < off + as.length + bs.length
        · rw [if_pos (by omega), if_neg (by omega), if_pos (by omega)]
          simp only [List.getD, List.getElem?_append_right (show as.length ≤ i - off by omega)]
          congr 3; omega
        · rw [if_neg (by omega), if_neg (by omega), if_neg (by omega)]
    · rw [if_neg (by omega), if_neg (by omega), if_neg (by omega)]

theorem length_xorBytes (a b : List Byte) : (xorBytes a b).length = min a.length b.length := by simp [xorBytes]

theorem length_xorFront {S B : List Byte} (h : B.length ≤ S.length) : (xorFront S B).length = S.length := by
  simp [xorFront, length_xorBytes]; omega

theorem xorFront_eq {S B : List Byte} (h : B.length ≤ S.length) : xorFront S B = xorAt S 0 B := by
  apply List.ext_getElem
  · simp [length_xorFront h]
  · intro i h1 h2
    rw [getElem_xorAt]
    simp only [xorFront, List.getElem_append, length_xorBytes, List.length_take]
    by_cases hi : i < B.length
    · rw [dif_pos (by omega), if_pos (by omega)]
      simp [xorBytes, List.getD, hi]
    · rw [dif_neg (by omega), if_neg (by omega)]
      simp only [List.getElem_drop]
      congr 1; omega

/-- Xoring zero bytes behind a block changes nothing. -/
theorem xorAt_zeros (S : List Byte) (off : Nat) (n : Nat) : xorAt S off (zeros n) = S := by
  apply List.ext_getElem
  · simp
  · intro i h1 h2
    rw [getElem_xorAt]
    split
    · simp [zeros, List.getD, List.getElem?_replicate]; split <;> simp
    · rfl

theorem xorAt_append_zeros (S : List Byte) (off : Nat) (as : List Byte) (n : Nat) :
    xorAt S off (as ++ zeros n) = xorAt S off as := by
  rw [← xorAt_append, xorAt_zeros]

theorem chunks_nil (r : Nat) : chunks r [] = [] := by
  unfold chunks; simp

theorem chunks_cons {r : Nat} {X : List Byte} (hr : 0 < r) (hX : X ≠ []) :
    chunks r X = X.take r :: chunks r (X.drop r) := by
  rw [chunks]; simp [hX]; omega

/-- A string of exactly one block. -/
theorem chunks_one {r : Nat} {X : List Byte} (hr : 0 < r) (hX : X.length = r) : chunks r X = [X] := by
  rw [chunks_cons hr (by rintro rfl; simp at hX; omega), List.take_of_length_le (by omega),
    List.drop_eq_nil_of_le (by omega), chunks_nil]

theorem blocks_lt {r : Nat} {X : List Byte} (h : X.length < r) :
    blocks r X = [X ++ [0x80] ++ zeros (r - 1 - X.length)] := by
  have : (r - (X.length + 1) % r) % r = r - 1 - X.length := by
    by_cases h' : X.length + 1 = r
    · simp [← h']
    · rw [Nat.mod_eq_of_lt (show X.length + 1 < r by omega), Nat.mod_eq_of_lt (by omega)]; omega
  rw [blocks, pad, this, chunks_one (by omega)]
  simp [zeros]; omega

theorem blocks_ge {r : Nat} {X : List Byte} (hr : 0 < r) (h : r ≤ X.length) :
    blocks r X = X.take r :: blocks r (X.drop r) := by
  have hne : pad r X ≠ [] := by simp [pad]
  rw [blocks, chunks_cons hr hne]
  have e1 : (pad r X).take r = X.take r := by
    simp only [pad, List.append_assoc]; rw [List.take_append_of_le_length h]
  have e2 : (pad r X).drop r = pad r (X.drop r) := by
    simp only [pad, List.append_assoc]; rw [List.drop_append_of_le_length h]
    have : (X.length + 1) % r = ((X.drop r).length + 1) % r := by
      rw [List.length_drop, show X.length + 1 = (X.length - r + 1) + r by omega, Nat.add_mod_right]
    rw [this]
  rw [e1, e2, blocks]

theorem sub_div_of_le {r n : Nat} (hr : 0 < r) (h : r ≤ n) : (n - r) / r = n / r - 1 := by
  obtain ⟨k, rfl⟩ := Nat.exists_eq_add_of_le h
  rw [Nat.add_sub_cancel_left, Nat.add_div_left _ hr, Nat.add_sub_cancel]

/-- Block `i` of a string. -/
def blk (r : Nat) (X : List Byte) (i : Nat) : List Byte := (X.drop (i * r)).take r

/-- The full blocks of `X`, then the last partial block with its padding. -/
theorem blocks_eq {r : Nat} (hr : 0 < r) : ∀ (X : List Byte),
    blocks r X = (List.range (X.length / r)).map (blk r X) ++
      [X.drop (X.length / r * r) ++ [0x80] ++ zeros (r - 1 - X.length % r)] := by
  intro X
  generalize hn : X.length / r = n
  induction n generalizing X with
  | zero =>
    have h : X.length < r := by
      rcases Nat.lt_or_ge X.length r with h | h
      · exact h
      · have := Nat.div_pos h hr; omega
    rw [blocks_lt h]; simp [Nat.mod_eq_of_lt h]
  | succ n ih =>
    have h : r ≤ X.length := by
      rcases Nat.lt_or_ge X.length r with h | h
      · rw [Nat.div_eq_of_lt h] at hn; omega
      · exact h
    have hd : (X.drop r).length / r = n := by
      rw [List.length_drop, sub_div_of_le hr h]; omega
    have hm : (X.drop r).length % r = X.length % r := by
      rw [List.length_drop, Nat.mod_eq_sub_mod h]
    rw [blocks_ge hr h, ih _ hd, List.range_succ_eq_map, List.map_cons, List.map_map, hm]
    simp only [List.drop_drop, List.cons_append]
    congr 1
    · simp [blk]
    · congr 1
      · apply List.map_congr_left
        intro i _
        simp only [blk, Function.comp, List.drop_drop]
        congr 2
        rw [Nat.succ_mul]; omega
      · congr 4
        rw [Nat.succ_mul]; omega

theorem length_blk {r i : Nat} {X : List Byte} (h : i < X.length / r) : (blk r X i).length = r := by
  have hr : 0 < r := by rcases Nat.eq_zero_or_pos r with h0 | h0 <;> simp_all
  have : (i + 1) * r ≤ X.length := (Nat.le_div_iff_mul_le hr).1 h
  rw [Nat.succ_mul] at this
  simp [blk]; omega

namespace Params
variable {P : Params}

/-- What is needed of the sizes. -/
structure Wf (P : Params) : Prop where
  r_pos : 0 < P.r
  r_lt : P.r < P.n
  n_ge : 24 ≤ P.n
  perm_len : ∀ k S, S.length = P.n → (P.perm k S).length = P.n

theorem Wf.len_pH (W : P.Wf) {S : List Byte} (h : S.length = P.n) : (P.pH S).length = P.n := W.perm_len _ _ h
theorem Wf.len_pB (W : P.Wf) {S : List Byte} (h : S.length = P.n) : (P.pB S).length = P.n := W.perm_len _ _ h
theorem Wf.len_pE (W : P.Wf) {S : List Byte} (h : S.length = P.n) : (P.pE S).length = P.n := W.perm_len _ _ h
theorem Wf.len_pK (W : P.Wf) {S : List Byte} (h : S.length = P.n) : (P.pK S).length = P.n := W.perm_len _ _ h

/-- State after absorbing the first `q` full blocks of `X`. -/
def absFull (P : Params) (S X : List Byte) (q : Nat) : List Byte :=
  (List.range q).foldl (fun S i => P.pH (xorAt S 0 (blk P.r X i))) S

theorem absFull_zero (S X : List Byte) : P.absFull S X 0 = S := rfl

theorem absFull_succ (S X : List Byte) (q : Nat) :
    P.absFull S X (q + 1) = P.pH (xorAt (P.absFull S X q) 0 (blk P.r X q)) := by
  simp [absFull, List.range_succ]

theorem length_absFull (W : P.Wf) {S : List Byte} (X : List Byte) (hS : S.length = P.n) (q : Nat) :
    (P.absFull S X q).length = P.n := by
  induction q with
  | zero => exact hS
  | succ q ih => rw [absFull_succ]; exact W.perm_len _ _ (by simpa using ih)

theorem absorb_map (W : P.Wf) {S : List Byte} (X : List Byte) (hS : S.length = P.n) (q : Nat) (hq : q ≤ X.length / P.r) :
    P.absorb S ((List.range q).map (blk P.r X)) = P.absFull S X q := by
  induction q with
  | zero => rfl
  | succ q ih =>
    have := ih (by omega)
    rw [List.range_succ, List.map_append, absorb, List.foldl_append]
    rw [absorb] at this
    rw [this, absFull_succ]
    simp only [List.map_cons, List.map_nil, List.foldl_cons, List.foldl_nil]
    rw [xorFront_eq]
    rw [length_blk (by omega), length_absFull W X hS]
    exact Nat.le_of_lt W.r_lt

/-- Absorption: full blocks, then the rest, then the padding bit. -/
theorem absorb_blocks (W : P.Wf) {S : List Byte} (X : List Byte) (hS : S.length = P.n) :
    P.absorb S (blocks P.r X) =
      P.pH (xorAt (xorAt (P.absFull S X (X.length / P.r)) 0 (X.drop (X.length / P.r * P.r))) (X.length % P.r) [0x80]) := by
  have hlen : (X.drop (X.length / P.r * P.r)).length = X.length % P.r := by
    rw [List.length_drop]; have := Nat.div_add_mod' X.length P.r; omega
  have hm : X.length % P.r < P.r := Nat.mod_lt _ W.r_pos
  have := W.r_lt
  rw [blocks_eq W.r_pos, absorb, List.foldl_append]
  have h2 := absorb_map W X hS _ (Nat.le_refl _)
  rw [absorb] at h2
  rw [h2]
  simp only [List.foldl_cons, List.foldl_nil]
  rw [xorFront_eq]
  · rw [xorAt_append_zeros, ← xorAt_append, hlen, Nat.zero_add]
  · simp only [List.length_append, hlen, zeros, List.length_replicate, List.length_cons, List.length_nil]
    rw [length_absFull W X hS]
    omega

theorem length_initState (W : P.Wf) {K : List Byte} (i : Nat) (hK : K.length = 16) :
    (P.initState K (P.iv i)).length = P.n := by
  have := W.n_ge
  simp [initState, iv, zeros, hK]; omega

theorem length_absorb (W : P.Wf) {S : List Byte} (X : List Byte) (hS : S.length = P.n) :
    (P.absorb S (blocks P.r X)).length = P.n := by
  rw [absorb_blocks W X hS]
  exact W.perm_len _ _ (by simp [length_absFull W X hS])

theorem domSep_eq (W : P.Wf) {S : List Byte} (hS : S.length = P.n) : P.domSep S = xorAt S (P.n - 1) [0x01] := by
  have := W.n_ge
  apply List.ext_getElem
  · rw [domSep, List.length_append, length_xorFront (by simp; omega)]; simp; omega
  · intro i h1 h2
    simp only [length_xorAt] at h2
    rw [getElem_xorAt]
    simp only [domSep, List.getElem_append, List.length_take]
    by_cases hi : i < P.n - 1
    · rw [dif_pos (by omega), if_neg (by omega)]; simp
    · rw [dif_neg (by omega), if_pos (by simp; omega)]
      have hi' : i = P.n - 1 := by omega
      subst hi'
      have e : xorFront (S.drop (P.n - 1)) [0x01] = xorAt (S.drop (P.n - 1)) 0 [0x01] := xorFront_eq (by simp; omega)
      simp only [e, getElem_xorAt, List.getElem_drop]
      rw [if_pos (by simp; omega)]
      have e2 : P.n - 1 - min (P.n - 1) S.length = 0 := by omega
      simp [e2]

end Params

theorem length_bits (X : List Byte) : (bits X).length = 8 * X.length := by
  induction X with
  | nil => rfl
  | cons b X ih => simp [bits, bitsOfByte] at *; omega

/-- Bit `i` of a byte string. -/
theorem getElem?_bits (X : List Byte) (i : Nat) (h : i < 8 * X.length) :
    (bits X)[i]? = some ((X.getD (i / 8) 0).getLsbD (7 - i % 8)) := by
  induction X generalizing i with
  | nil => simp at h
  | cons b X ih =>
    simp only [bits, List.flatMap_cons]
    by_cases hi : i < 8
    · rw [List.getElem?_append_left (by simp [bitsOfByte, hi])]
      simp [bitsOfByte, hi, Nat.div_eq_of_lt hi, Nat.mod_eq_of_lt hi]
    · rw [List.getElem?_append_right (by simp [bitsOfByte]; omega)]
      have := ih (i - 8) (by simp at h; omega)
      simp only [bits] at this
      simp only [bitsOfByte, List.length_map, List.length_range] at this ⊢
      rw [this]
      have e1 : i / 8 = (i - 8) / 8 + 1 := by omega
      have e2 : i % 8 = (i - 8) % 8 := by omega
      rw [e1, e2]; simp

theorem foldl_range_getElem {α β : Type} (f : β → α → β) (b : β) (l : List α) (g : Nat → α)
    (h : ∀ i, i < l.length → l[i]? = some (g i)) :
    l.foldl f b = (List.range l.length).foldl (fun s i => f s (g i)) b := by
  have : l = (List.range l.length).map g := by
    apply List.ext_getElem?
    intro i
    by_cases hi : i < l.length
    · rw [h i hi]; simp [hi]
    · simp [hi]
  conv => lhs; rw [this]
  rw [List.foldl_map]

namespace Params
variable {P : Params}

/-- Bit `i` of a string, as the byte absorbed by ISAP_RK. -/
def rkByte (Y : List Byte) (i : Nat) : Byte := bitByte ((Y.getD (i / 8) 0).getLsbD (7 - i % 8))

/-- ISAP_RK for a 16-byte string as an indexed fold. -/
theorem rk_eq (W : P.Wf) {K Y : List Byte} (i z : Nat) (hK : K.length = 16) (hY : Y.length = 16) :
    P.rk K (P.iv i) Y z =
      (P.pK (xorAt ((List.range 127).foldl (fun S j => P.pB (xorAt S 0 [rkByte Y j])) (P.pK (P.initState K (P.iv i))))
        0 [bitByte ((Y.getD 15 0).getLsbD 0)])).take z := by
  have := W.n_ge
  have hI := W.len_pK (length_initState W i hK)
  have key : ∀ (l : List Nat) (S : List Byte), S.length = P.n →
      l.foldl (fun S j => P.pB (xorFront S [rkByte Y j])) S = l.foldl (fun S j => P.pB (xorAt S 0 [rkByte Y j])) S ∧
      (l.foldl (fun S j => P.pB (xorFront S [rkByte Y j])) S).length = P.n := by
    intro l
    induction l with
    | nil => intro S hS; exact ⟨rfl, hS⟩
    | cons j l ih =>
      intro S hS
      simp only [List.foldl_cons]
      rw [xorFront_eq (S := S) (by simp; omega)]
      exact ih _ (W.perm_len _ _ (by simpa using hS))
  have hd : (bits Y).dropLast.length = 127 := by simp [length_bits, hY]
  simp only [rk]
  rw [foldl_range_getElem _ _ _ (fun j => (Y.getD (j / 8) 0).getLsbD (7 - j % 8)), hd]
  · have k := key (List.range 127) _ hI
    have hl : (bits Y).getLastD false = (Y.getD 15 0).getLsbD 0 := by
      rw [List.getLastD_eq_getLast?, List.getLast?_eq_getElem?, length_bits, hY, getElem?_bits _ _ (by omega)]
      rfl
    simp only [rkByte, pK] at k
    simp only [hl, rkByte, pK]
    rw [xorFront_eq, k.1]
    rw [k.2]; simp; omega
  · intro j hj
    rw [hd] at hj
    rw [List.getElem?_dropLast, length_bits, hY, if_pos (by omega), getElem?_bits _ _ (by omega)]

theorem length_rk (W : P.Wf) {K Y : List Byte} (i z : Nat) (hK : K.length = 16) (hY : Y.length = 16) (hz : z ≤ P.n) :
    (P.rk K (P.iv i) Y z).length = z := by
  have key : ∀ (l : List Nat) (S : List Byte), S.length = P.n →
      (l.foldl (fun S j => P.pB (xorAt S 0 [rkByte Y j])) S).length = P.n := by
    intro l
    induction l with
    | nil => intro S hS; exact hS
    | cons j l ih => intro S hS; exact ih _ (W.perm_len _ _ (by simpa using hS))
  rw [rk_eq W i z hK hY, List.length_take, pK, W.perm_len]
  · omega
  · rw [length_xorAt]; exact key _ _ (W.perm_len _ _ (length_initState W i hK))

theorem length_mac (W : P.Wf) {K N : List Byte} (A C : List Byte) (hK : K.length = 16) (hN : N.length = 16) :
    (P.mac K N A C).length = 16 := by
  have hn := W.n_ge
  simp only [mac, ivA, ivKA]
  have h1 : (P.absorb (P.domSep (P.absorb (P.pH (P.initState N (P.iv 1))) (blocks P.r A))) (blocks P.r C)).length = P.n := by
    have h0 := length_absorb W A (W.len_pH (length_initState W 1 hN))
    apply length_absorb W
    rw [domSep_eq W h0, length_xorAt, h0]
  have hk := length_rk W (Y := (P.absorb (P.domSep (P.absorb (P.pH (P.initState N (P.iv 1))) (blocks P.r A)))
    (blocks P.r C)).take 16) 2 16 hK (by simp [h1]; omega) (by omega)
  rw [List.length_take, pH, W.perm_len]
  · omega
  · rw [List.length_append, hk, List.length_drop, h1]; omega

@[simp] theorem length_enc (K N M : List Byte) : (P.enc K N M).length = M.length := by simp [enc]

theorem length_encInit (W : P.Wf) {K N : List Byte} (hK : K.length = 16) (hN : N.length = 16) :
    (P.encInit K N).length = P.n := by
  have := W.n_ge
  rw [encInit, List.length_append, ivKE, length_rk W 3 _ hK hN (by omega), hN]; omega

/-- Decryption of the body inverts encryption. -/
theorem enc_enc (K N M : List Byte) : P.enc K N (P.enc K N M) = M := by
  apply List.ext_getElem
  · simp
  · intro i h1 h2
    simp [enc, BitVec.xor_assoc]

end Params
end Spec
