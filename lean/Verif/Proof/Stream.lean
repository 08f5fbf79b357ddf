import Verif.Proof.EncLoop
/-!
# Loops that encrypt block by block with any keystream
-/

namespace Model
open C Spec

/-- The message xored with the keystream whose blocks of `r` bytes are `ks 0`, `ks 1`, ... -/
def xorStream (r : Nat) (ks : Nat → List Byte) (M : List Byte) : List Byte :=
  (List.range M.length).map fun i => M.getD i 0 ^^^ (ks (i / r)).getD (i % r) 0

@[simp] theorem length_xorStream (r : Nat) (ks : Nat → List Byte) (M : List Byte) : (xorStream r ks M).length = M.length := by
  simp [xorStream]

theorem getD_xorStream {r : Nat} {ks : Nat → List Byte} {M : List Byte} {i : Nat} (h : i < M.length) :
    (xorStream r ks M).getD i 0 = M.getD i 0 ^^^ (ks (i / r)).getD (i % r) 0 := by
  simp [xorStream, List.getD, h]

theorem getElem_getD {M : List Byte} {i : Nat} (h : i < M.length) : M[i] = M.getD i 0 := by
  simp [List.getD, h]

theorem xorStream_xorStream (r : Nat) (ks : Nat → List Byte) (M : List Byte) : xorStream r ks (xorStream r ks M) = M := by
  refine List.ext_getElem (by simp) fun i h1 h2 => ?_
  rw [getElem_getD, getElem_getD, getD_xorStream (by simpa using h2), getD_xorStream h2, BitVec.xor_assoc, BitVec.xor_self,
    BitVec.xor_zero]

theorem take_xorStream (r : Nat) (ks : Nat → List Byte) (M : List Byte) (n : Nat) :
    (xorStream r ks M).take n = xorStream r ks (M.take n) := by
  refine List.ext_getElem (by simp) fun i h1 h2 => ?_
  have h : i < n ∧ i < M.length := by simp at h1; omega
  rw [List.getElem_take, getElem_getD, getElem_getD, getD_xorStream h.2, getD_xorStream (by simp; omega)]
  simp [List.getD, h.1]

theorem xorStream_piece {r : Nat} (ks : Nat → List Byte) (M : List Byte) {i w : Nat} (hk : (ks i).length = r) (hw : w ≤ r)
    (hr : 0 < r) (hl : r * i + w ≤ M.length) :
    ((xorStream r ks M).drop (r * i)).take w = xorBytes ((M.drop (r * i)).take w) ((ks i).take w) := by
  have hl1 : (((xorStream r ks M).drop (r * i)).take w).length = w := by simp; omega
  refine List.ext_getElem (by rw [hl1, length_xorBytes]; simp; omega) fun j h1 h2 => ?_
  have hj : j < w := by omega
  rw [getElem_xorBytes, List.getElem_take, List.getElem_drop, List.getElem_take, List.getElem_drop, List.getElem_take,
    getElem_getD, getElem_getD, getElem_getD, getD_xorStream (by omega)]
  rw [Nat.mul_add_div hr, Nat.div_eq_of_lt (show j < r by omega), Nat.add_zero, Nat.mul_add_mod, Nat.mod_eq_of_lt (by omega)]

/-- A loop whose body `i` encrypts block `i`, for some number of blocks. -/
theorem runs_streamBlocks {r : Nat} (hr : 0 < r) {ks : Nat → List Byte} (hks : ∀ i, (ks i).length = r)
    {σ : Type} {e : Env} {s : St} {m c : Ptr} {mlen : Nat} (n : Nat) (hn : n * r ≤ mlen) (sv : Nat → σ) {body : Nat → σ → CM σ}
    (hov : OverlapOK c m mlen)
    (h : ∀ i, (i + 1) * r ≤ mlen → ∀ st,
      Runs (body i (sv i)) e st (sv (i + 1))
        (putBytes st (c + r * i) (xorBytes (bytesAt st (m + r * i) r) (ks i)))) :
    Runs (forN n 0 body (sv 0)) e s (sv n)
      (putBytes s c ((xorStream r ks (bytesAt s m mlen)).take (r * n))) := by
  generalize hX : xorStream r ks (bytesAt s m mlen) = X
  have hXl : X.length = mlen := by rw [← hX]; simp
  have := runs_forN (e := e) (f := body) n 0 sv (fun j => putBytes s c (X.take (r * j))) (by
    intro j hj
    rw [Nat.zero_add]
    have hle : (j + 1) * r ≤ mlen := Nat.le_trans (Nat.mul_le_mul_right _ hj) hn
    have hle' : r * j + r ≤ mlen := by rw [Nat.succ_mul, Nat.mul_comm] at hle; exact hle
    refine runs_eq2 (h j hle _) rfl ?_
    have hl : (X.take (r * j)).length = r * j := by simp; omega
    rw [bytesAt_ahead s hov (by omega) (by omega)]
    have ha := putBytes_append s c (X.take (r * j)) ((X.drop (r * j)).take r)
    rw [hl] at ha
    rw [Nat.mul_add, Nat.mul_one, List.take_add, ← ha]
    congr 1
    rw [← hX, xorStream_piece ks _ (hks j) (Nat.le_refl _) hr (by simpa using hle'), bytesAt_drop,
      bytesAt_take _ _ _ _ (by omega), List.take_of_length_le (by rw [hks]; exact Nat.le_refl _)])
  simp only [Nat.mul_zero, List.take_zero, putBytes_nil] at this
  exact this

/-- The rest of the message, at most one block. -/
theorem stream_rest {r : Nat} (hr : 0 < r) {ks : Nat → List Byte} (hks : ∀ i, (ks i).length = r) (s : St) {m c : Ptr} {mlen : Nat}
    (hov : OverlapOK c m mlen) {n w : Nat} (hw : w ≤ r) (hn : r * n + w = mlen) (st : St)
    (hst : st = putBytes s c ((xorStream r ks (bytesAt s m mlen)).take (r * n))) :
    putBytes st (c + r * n) (xorBytes (bytesAt st (m + r * n) w) ((ks n).take w)) =
      putBytes s c (xorStream r ks (bytesAt s m mlen)) := by
  have hp := xorStream_piece ks (bytesAt s m mlen) (i := n) (w := w) (hks n) hw hr (by simp; omega)
  generalize hX : xorStream r ks (bytesAt s m mlen) = X at *
  have hXl : X.length = mlen := by rw [← hX]; simp
  have hl : (X.take (r * n)).length = r * n := by simp; omega
  rw [hst, bytesAt_ahead s hov (by omega) (by omega)]
  have ha := putBytes_append s c (X.take (r * n)) (X.drop (r * n))
  rw [hl, List.take_append_drop] at ha
  rw [← ha]
  congr 1
  rw [List.take_of_length_le (by rw [List.length_drop]; omega)] at hp
  rw [hp, bytesAt_drop, bytesAt_take _ _ _ _ (by omega)]

/-- Nothing is left if the length is a multiple of the rate. -/
theorem stream_none {r : Nat} {ks : Nat → List Byte} (s : St) {m c : Ptr} {mlen : Nat} (h : mlen % r = 0) :
    putBytes s c ((xorStream r ks (bytesAt s m mlen)).take (r * (mlen / r))) = putBytes s c (xorStream r ks (bytesAt s m mlen)) := by
  have hdm := Nat.div_add_mod mlen r
  rw [List.take_of_length_le (by simp; omega)]

/-! ## `crypto_aead.c` with any two functions -/

/-- What `isap_mac` and `isap_enc` compute, as functions of the bytes. -/
structure Cipher where
  mac : (K N A C : List Byte) → List Byte
  enc : (K N M : List Byte) → List Byte

/-- Tags have 16 bytes, and encryption is a stream cipher. -/
structure Cipher.Ok (F : Cipher) : Prop where
  mac_len : ∀ K N A C, (F.mac K N A C).length = 16
  enc_len : ∀ K N M, (F.enc K N M).length = M.length
  enc_enc : ∀ K N M, F.enc K N (F.enc K N M) = M

/-- As `MacOK`, for any function. -/
def Cipher.MacOK (F : Cipher) (L : Limits)
    (mac : (k npub ad : Ptr) → (adlen : Nat) → (c : Ptr) → (clen : Nat) → CM (List Byte)) : Prop :=
  ∀ (e : Env) (s : St) (k npub ad : Ptr) (adlen : Nat) (c : Ptr) (clen : Nat),
    Aligned e L.al k 16 → Aligned e L.al npub 16 → Aligned e L.al ad adlen → Aligned e L.al c clen →
    adlen < L.maxLen → clen < L.maxLen →
    Readable e k 16 → Readable e npub 16 → Readable e ad adlen → Readable e c clen →
    Runs (mac k npub ad adlen c clen) e s
      (F.mac (bytesAt s k 16) (bytesAt s npub 16) (bytesAt s ad adlen) (bytesAt s c clen)) s

/-- As `EncOK`, for any function. -/
def Cipher.EncOK (F : Cipher) (L : Limits) (enc : (k npub m : Ptr) → (mlen : Nat) → (c : Ptr) → CM Unit) : Prop :=
  ∀ (e : Env) (s : St) (k npub m : Ptr) (mlen : Nat) (c : Ptr),
    Aligned e L.al k 16 → Aligned e L.al npub 16 → Aligned e L.al m mlen → Aligned e L.al c mlen → mlen < L.maxLen →
    Readable e k 16 → Readable e npub 16 → Readable e m mlen → Writable e c mlen → OverlapOK c m mlen →
    Runs (enc k npub m mlen c) e s () (putBytes s c (F.enc (bytesAt s k 16) (bytesAt s npub 16) (bytesAt s m mlen)))

/-- An implementation computes the functions. -/
structure Cipher.Impl (F : Cipher) (L : Limits) (I : Model.Impl) : Prop where
  ok : F.Ok
  mac : F.MacOK L I.mac
  enc : F.EncOK L I.enc
  tag : L.tal = I.tagAlign
  dvd : I.tagAlign ∣ 16

end Model
