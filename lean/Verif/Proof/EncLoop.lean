import Verif.Proof.Contract
import Verif.Proof.AsconWord
/-!
# Loops that encrypt block by block, front to back
-/

namespace Model
open C Spec

theorem OverlapOK.add {c m : Ptr} {n k w : Nat} (h : OverlapOK c m n) (hk : k + w ≤ n) : OverlapOK (c + k) (m + k) w := by
  unfold OverlapOK at *
  simp only [add_blk, add_off]
  omega

theorem getElem_xorBytes (A B : List Byte) (i : Nat) (h : i < (xorBytes A B).length) :
    (xorBytes A B)[i] = (A[i]'(by rw [length_xorBytes] at h; omega)) ^^^ (B[i]'(by rw [length_xorBytes] at h; omega)) := by
  simp [xorBytes]

/-- Byte loop `*c++ = *m++ ^ ks[i]`. -/
theorem runs_xorLoop {e : Env} {s : St} {m c : Ptr} {w : Nat} {ks : Nat → Byte} (KS : List Byte) (hov : OverlapOK c m w)
    (hm : Readable e m w) (hc : Writable e c w) (hl : KS.length = w) (hks : ∀ i, i < w → ks i = KS.getD i 0) :
    Runs (forN w 0 (fun i (_ : Unit) => do
      let d ← load8 (m + i)
      store8 (c + i) (d ^^^ ks i)) ()) e s () (putBytes s c (xorBytes (bytesAt s m w) KS)) := by
  generalize hT : xorBytes (bytesAt s m w) KS = T
  have hTl : T.length = w := by rw [← hT, length_xorBytes]; simp [hl]
  have := runs_forN (e := e) w 0 (fun _ => ()) (fun j => putBytes s c (T.take j))
    (f := fun i (_ : Unit) => do
      let d ← load8 (m + i)
      store8 (c + i) (d ^^^ ks i)) (by
    intro j hj
    rw [Nat.zero_add]
    refine runs_bind (runs_load8 (by simpa using hm j hj)) ?_
    have hb := bytesAt_ahead s (bs := T.take j) (i := j) (w := 1) hov (by simp; omega) (by omega)
    have hb' : (putBytes s c (T.take j)).mem (m + j).blk (m + j).off = s.mem m.blk (m.off + j) := by
      simpa [bytesAt] using hb
    rw [hb']
    refine runs_eq2 (runs_store8 (hc.add (by omega))) rfl ?_
    have hjT : j < T.length := by omega
    have ha := putBytes_append s c (T.take j) [T[j]]
    rw [show (T.take j).length = j by simp; omega] at ha
    rw [List.take_add_one (i := j) (l := T), List.getElem?_eq_getElem hjT, Option.toList_some, ← ha]
    congr 2
    subst hT
    rw [getElem_xorBytes, getElem_bytesAt, hks j hj]
    simp [List.getD, hl, hj])
  simp only [List.take_zero, putBytes_nil] at this
  rw [List.take_of_length_le (by omega)] at this
  exact this

/-- Block `i` of the keystream. -/
def ksBlock (P : Params) (K N : List Byte) (i : Nat) : List Byte := (Nat.repeat P.pE (i + 1) (P.encInit K N)).take P.r

/-- A loop whose body `i` encrypts block `i`, for some number of blocks. -/
theorem runs_encBlocks {P : Params} (W : P.Wf) {K N : List Byte} (hK : K.length = 16) (hN : N.length = 16)
    {σ : Type} {e : Env} {s : St} {m c : Ptr} {mlen : Nat} (n : Nat) (hn : n * P.r ≤ mlen) (sv : Nat → σ) {body : Nat → σ → CM σ}
    (hov : OverlapOK c m mlen)
    (h : ∀ i, (i + 1) * P.r ≤ mlen → ∀ st,
      Runs (body i (sv i)) e st (sv (i + 1))
        (putBytes st (c + P.r * i) (xorBytes (bytesAt st (m + P.r * i) P.r) (ksBlock P K N i)))) :
    Runs (forN n 0 body (sv 0)) e s (sv n)
      (putBytes s c ((P.enc K N (bytesAt s m mlen)).take (P.r * n))) := by
  generalize hX : P.enc K N (bytesAt s m mlen) = X
  have hXl : X.length = mlen := by rw [← hX]; simp [Params.enc]
  have := runs_forN (e := e) (f := body) n 0 sv (fun j => putBytes s c (X.take (P.r * j))) (by
    intro j hj
    rw [Nat.zero_add]
    have hle : (j + 1) * P.r ≤ mlen := Nat.le_trans (Nat.mul_le_mul_right _ hj) hn
    have hle' : P.r * j + P.r ≤ mlen := by rw [Nat.succ_mul, Nat.mul_comm] at hle; exact hle
    refine runs_eq2 (h j hle _) rfl ?_
    have hl : (X.take (P.r * j)).length = P.r * j := by simp; omega
    rw [bytesAt_ahead s hov (by omega) (by omega)]
    have ha := putBytes_append s c (X.take (P.r * j)) ((X.drop (P.r * j)).take P.r)
    rw [hl] at ha
    rw [Nat.mul_add, Nat.mul_one, List.take_add, ← ha]
    congr 1
    rw [← hX, Nat.mul_comm P.r j, Params.enc_piece P W _ _ _ hK hN (Nat.le_refl _) (by simp; rw [Nat.mul_comm]; exact hle'),
      bytesAt_drop, bytesAt_take _ _ _ _ (by rw [Nat.mul_comm]; omega)]
    rfl)
  simp only [Nat.mul_zero, List.take_zero, putBytes_nil] at this
  exact this

/-- A loop whose body `i` encrypts block `i`. -/
theorem runs_encLoop {P : Params} (W : P.Wf) {K N : List Byte} (hK : K.length = 16) (hN : N.length = 16)
    {σ : Type} {e : Env} {s : St} {m c : Ptr} {mlen : Nat} (sv : Nat → σ) {body : Nat → σ → CM σ}
    (hov : OverlapOK c m mlen)
    (h : ∀ i, (i + 1) * P.r ≤ mlen → ∀ st,
      Runs (body i (sv i)) e st (sv (i + 1))
        (putBytes st (c + P.r * i) (xorBytes (bytesAt st (m + P.r * i) P.r) (ksBlock P K N i)))) :
    Runs (forN (mlen / P.r) 0 body (sv 0)) e s (sv (mlen / P.r))
      (putBytes s c ((P.enc K N (bytesAt s m mlen)).take (P.r * (mlen / P.r)))) :=
  runs_encBlocks W hK hN _ (Nat.div_mul_le_self _ _) sv hov h

/-- The rest of the message, at most one block. -/
theorem enc_rest {P : Params} (W : P.Wf) {K N : List Byte} (hK : K.length = 16) (hN : N.length = 16)
    (s : St) {m c : Ptr} {mlen : Nat} (hov : OverlapOK c m mlen) {n w : Nat} (hw : w ≤ P.r) (hn : P.r * n + w = mlen) (st : St)
    (hst : st = putBytes s c ((P.enc K N (bytesAt s m mlen)).take (P.r * n))) :
    putBytes st (c + P.r * n) (xorBytes (bytesAt st (m + P.r * n) w)
      ((ksBlock P K N n).take w)) = putBytes s c (P.enc K N (bytesAt s m mlen)) := by
  have hp := Params.enc_piece P W K N (bytesAt s m mlen) hK hN (i := n) (w := w) hw
    (by rw [Nat.mul_comm]; simp; omega)
  generalize hX : P.enc K N (bytesAt s m mlen) = X at *
  have hXl : X.length = mlen := by rw [← hX]; simp [Params.enc]
  have hl : (X.take (P.r * n)).length = P.r * n := by simp; omega
  rw [hst, bytesAt_ahead s hov (by omega) (by omega)]
  have ha := putBytes_append s c (X.take (P.r * n)) (X.drop (P.r * n))
  rw [hl, List.take_append_drop] at ha
  rw [← ha]
  congr 1
  rw [Nat.mul_comm n P.r, List.take_of_length_le (by rw [List.length_drop]; omega)] at hp
  rw [hp, bytesAt_drop, bytesAt_take _ _ _ _ (by omega), ksBlock, List.take_take, Nat.min_eq_left (by omega)]

/-- The last, partial block. -/
theorem enc_last {P : Params} (W : P.Wf) {K N : List Byte} (hK : K.length = 16) (hN : N.length = 16)
    (s : St) {m c : Ptr} {mlen : Nat} (hov : OverlapOK c m mlen) (st : St)
    (hst : st = putBytes s c ((P.enc K N (bytesAt s m mlen)).take (P.r * (mlen / P.r)))) :
    putBytes st (c + P.r * (mlen / P.r)) (xorBytes (bytesAt st (m + P.r * (mlen / P.r)) (mlen % P.r))
      ((ksBlock P K N (mlen / P.r)).take (mlen % P.r))) = putBytes s c (P.enc K N (bytesAt s m mlen)) :=
  enc_rest W hK hN s hov (Nat.le_of_lt (Nat.mod_lt _ W.r_pos)) (Nat.div_add_mod mlen P.r) st hst

/-- Nothing is left if the length is a multiple of the rate. -/
theorem enc_none {P : Params} {K N : List Byte} (s : St) {m c : Ptr} {mlen : Nat} (h : mlen % P.r = 0) :
    putBytes s c ((P.enc K N (bytesAt s m mlen)).take (P.r * (mlen / P.r))) =
      putBytes s c (P.enc K N (bytesAt s m mlen)) := by
  have hdm := Nat.div_add_mod mlen P.r
  rw [List.take_of_length_le (by simp [Params.enc]; omega)]

end Model
