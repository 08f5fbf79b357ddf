import Verif.Model.RefMode
import Verif.Proof.Contract
/-!
# The reference mode computes the specification
-/

namespace Model.Ref
open C Spec

/-- The configuration `G` is the parameter set `P`, and its permutation is the specified one. -/
structure CfgOK (G : Cfg) (P : Params) : Prop where
  wf : P.Wf
  n : G.stateSz = P.n
  r : G.rH = 8 * P.r
  sH : G.sH = P.sH
  sB : G.sB = P.sB
  sE : G.sE = P.sE
  sK : G.sK = P.sK
  perm : ∀ (e : Env) (s : St) (S : List Byte) (k : Nat), k ∈ [P.sH, P.sB, P.sE, P.sK] → S.length = P.n →
    Runs (G.permute S k) e s (P.perm k S) s

variable {G : Cfg} {P : Params} {e : Env} {s : St}

theorem CfgOK.rHsz (O : CfgOK G P) : G.rHsz = P.r := by rw [Cfg.rHsz, O.r]; omega

theorem CfgOK.iv (O : CfgOK G P) (i : Nat) : G.iv i = P.iv i := by
  simp [Cfg.iv, Params.iv, O.r, O.sH, O.sB, O.sE, O.sK]

theorem CfgOK.runs_pH (O : CfgOK G P) {S : List Byte} (h : S.length = P.n) : Runs (G.permute S G.sH) e s (P.pH S) s := by
  rw [O.sH]; exact O.perm e s S _ (by simp) h
theorem CfgOK.runs_pB (O : CfgOK G P) {S : List Byte} (h : S.length = P.n) : Runs (G.permute S G.sB) e s (P.pB S) s := by
  rw [O.sB]; exact O.perm e s S _ (by simp) h
theorem CfgOK.runs_pE (O : CfgOK G P) {S : List Byte} (h : S.length = P.n) : Runs (G.permute S G.sE) e s (P.pE S) s := by
  rw [O.sE]; exact O.perm e s S _ (by simp) h
theorem CfgOK.runs_pK (O : CfgOK G P) {S : List Byte} (h : S.length = P.n) : Runs (G.permute S G.sK) e s (P.pK S) s := by
  rw [O.sK]; exact O.perm e s S _ (by simp) h

theorem foldl_modify (S : List Byte) (off : Nat) (bs : List Byte) (n : Nat) (hn : n ≤ bs.length) :
    (List.range n).foldl (fun st i => st.modify (off + i) (· ^^^ bs.getD i 0)) S = xorAt S off (bs.take n) := by
  induction n with
  | zero => simp
  | succ n ih =>
    rw [List.range_succ, List.foldl_append, ih (by omega)]
    simp only [List.foldl_cons, List.foldl_nil]
    apply List.ext_getElem
    · simp
    · intro j h1 h2
      rw [List.getElem_modify]
      simp only [getElem_xorAt, List.length_take, Nat.min_eq_left hn, Nat.min_eq_left (show n ≤ bs.length by omega)]
      by_cases hj : off + n = j
      · subst hj
        rw [if_pos rfl, if_neg (by omega), if_pos (by omega)]
        simp [List.getD, Nat.add_sub_cancel_left]
      · rw [if_neg hj]
        by_cases hj2 : off ≤ j ∧ j < off + n
        · rw [if_pos hj2, if_pos (by omega)]
          simp [List.getD, show j - off < n by omega, show j - off < n + 1 by omega]
        · rw [if_neg hj2, if_neg (by omega)]

theorem runs_addBytes (O : CfgOK G P) (S : List Byte) {src : Src} {off len : Nat} (hs : src.Ok e len)
    (h : off + len ≤ P.n) (h0 : off < P.n) :
    Runs (addBytes G S src off len) e s (xorAt S off (src.bytes s len)) s := by
  refine runs_bind (runs_assert (by simp [O.n, h0]) _ _) (runs_bind (runs_assert (by simp [O.n, h]) _ _) ?_)
  have hl := Src.length_bytes (s := s) hs
  refine runs_eq (runs_forN_fold len 0 S (g := fun i st => st.modify (off + i) (· ^^^ (src.bytes s len).getD i 0)) ?_) ?_
  · intro j hj x
    rw [Nat.zero_add]
    exact runs_bind (runs_get hs hj) (runs_pure _ _ _)
  · rw [foldl_modify _ _ _ _ (by omega), List.take_of_length_le (by omega)]

theorem runs_addLoc (O : CfgOK G P) (S bs : List Byte) {off len : Nat} (hl : bs.length = len) (h : off + len ≤ P.n)
    (h0 : off < P.n) : Runs (addBytes G S (.loc bs) off len) e s (xorAt S off bs) s := by
  refine runs_eq (runs_addBytes O S (src := .loc bs) (by simp [Src.Ok, hl]) h h0) ?_
  simp [Src.bytes, ← hl]

theorem foldl_set (S : List Byte) (off : Nat) (bs : List Byte) (n : Nat) (hn : n ≤ bs.length) (h : off + n ≤ S.length) :
    (List.range n).foldl (fun st i => st.set (off + i) (bs.getD i 0)) S =
      S.take off ++ bs.take n ++ S.drop (off + n) := by
  induction n with
  | zero => simp
  | succ n ih =>
    rw [List.range_succ, List.foldl_append, ih (by omega) (by omega)]
    simp only [List.foldl_cons, List.foldl_nil]
    apply List.ext_getElem
    · simp; omega
    · intro j h1 h2
      have hoff : min off S.length = off := by omega
      have hn1 : min (n + 1) bs.length = n + 1 := by omega
      have hn0 : min n bs.length = n := by omega
      simp only [List.getElem_set, List.getElem_append, List.length_append, List.length_take, List.getElem_take,
        List.getElem_drop, List.getD, hoff, hn1, hn0]
      by_cases hj : off + n = j
      · subst hj
        rw [if_pos rfl, dif_pos (by omega), dif_neg (by omega)]
        simp [show n < bs.length by omega, Nat.add_sub_cancel_left]
      · rw [if_neg hj]
        by_cases hj2 : j < off + n
        · simp [hj2, show j < off + (n + 1) by omega]
        · rw [dif_neg (by omega), dif_neg (by omega)]
          congr 1; omega

theorem runs_overwrite (O : CfgOK G P) {S : List Byte} {src : Src} {off len : Nat} (hS : S.length = P.n) (hs : src.Ok e len)
    (h : off + len ≤ P.n) (h0 : off < P.n) :
    Runs (overwriteBytes G S src off len) e s (S.take off ++ src.bytes s len ++ S.drop (off + len)) s := by
  refine runs_bind (runs_assert (by simp [O.n, h0]) _ _) (runs_bind (runs_assert (by simp [O.n, h]) _ _) ?_)
  have hl := Src.length_bytes (s := s) hs
  refine runs_eq (runs_forN_fold len 0 S (g := fun i st => st.set (off + i) ((src.bytes s len).getD i 0)) ?_) ?_
  · intro j hj x
    rw [Nat.zero_add]
    exact runs_bind (runs_get hs hj) (runs_pure _ _ _)
  · rw [foldl_set _ _ _ _ (by omega) (by omega), List.take_of_length_le (l := src.bytes s len) (by omega)]

theorem runs_extract (O : CfgOK G P) (S : List Byte) {off len : Nat} (h : off + len ≤ P.n) (h0 : off < P.n) :
    Runs (extractBytes G S off len) e s ((S.drop off).take len) s :=
  runs_bind (runs_assert (by simp [O.n, h0]) _ _) (runs_bind (runs_assert (by simp [O.n, h]) _ _) (runs_pure _ _ _))

theorem curBit_eq (b : Byte) (pos : Nat) : curBit b pos = Params.bitByte (b.getLsbD pos) := by
  apply BitVec.eq_of_getLsbD_eq
  intro i hi
  have hi' : i = 0 ∨ i = 1 ∨ i = 2 ∨ i = 3 ∨ i = 4 ∨ i = 5 ∨ i = 6 ∨ i = 7 := by omega
  rcases hi' with rfl | rfl | rfl | rfl | rfl | rfl | rfl | rfl <;>
    simp [curBit, Params.bitByte] <;> cases b.getLsbD pos <;> simp

/-- `K ‖ IV` added to the zero state. -/
theorem initState_eq (O : CfgOK G P) {K : List Byte} (hK : K.length = 16) (i : Nat) :
    xorAt (xorAt (List.replicate G.stateSz (0 : Byte)) 0 K) 16 (G.iv i) = P.initState K (P.iv i) := by
  have hn := O.wf.n_ge
  have hiv : (P.iv i).length = 8 := rfl
  rw [O.iv]
  have := xorAt_append (List.replicate G.stateSz (0 : Byte)) 0 K (P.iv i)
  rw [hK] at this
  rw [this, O.n]
  apply List.ext_getElem
  · simp [Params.initState, zeros, hK, hiv]; omega
  · intro j h1 h2
    rw [getElem_xorAt]
    simp only [List.getElem_replicate, List.length_append, hK, hiv, Nat.sub_zero, Nat.zero_le, true_and, Nat.zero_add,
      Params.initState]
    by_cases hj : j < 24
    · rw [if_pos hj, List.getElem_append_left (by simp [hK, hiv]; omega)]
      simp [List.getD, hK, hiv, hj]
    · rw [if_neg hj, List.getElem_append_right (by simp [hK, hiv]; omega)]
      simp [zeros]

theorem runs_isapRk (O : CfgOK G P) {k : Ptr} {src : Src} (i : Nat) {outlen : Nat} (hk : Readable e k 16)
    (hs : src.Ok e 16) (ho : outlen ≤ P.n) :
    Runs (isapRk G k (G.iv i) src 16 outlen) e s
      (P.rk (bytesAt s k 16) (P.iv i) (src.bytes s 16) outlen) s := by
  have hn := O.wf.n_ge
  have hY := Src.length_bytes (s := s) hs
  have hK : (bytesAt s k 16).length = 16 := by simp
  rw [Params.rk_eq O.wf i outlen hK hY]
  refine runs_bind (runs_addBytes O _ (src := .ext k) hk (by omega) (by omega)) ?_
  refine runs_bind (runs_addLoc O _ _ rfl (by omega) (by omega)) ?_
  have hI := Params.length_initState O.wf i hK
  show Runs (G.permute (xorAt (xorAt _ _ (bytesAt s k 16)) _ _) _ >>= _) _ _ _ _
  rw [initState_eq O hK]
  refine runs_bind (O.runs_pK hI) ?_
  have hlen : ∀ j, ((List.range j).foldl (fun S j => P.pB (xorAt S 0 [Params.rkByte (src.bytes s 16) j]))
      (P.pK (P.initState (bytesAt s k 16) (P.iv i)))).length = P.n := by
    intro j
    induction j with
    | zero => exact O.wf.len_pK hI
    | succ j ih =>
      rw [List.range_succ, List.foldl_append]
      exact O.wf.len_pB (by simpa using ih)
  refine runs_bind (s' := s) (a := (List.range 127).foldl (fun S j => P.pB (xorAt S 0 [Params.rkByte (src.bytes s 16) j]))
      (P.pK (P.initState (bytesAt s k 16) (P.iv i)))) ?_ ?_
  · refine runs_forN_pure 127 0 (fun n => (List.range n).foldl
      (fun S j => P.pB (xorAt S 0 [Params.rkByte (src.bytes s 16) j])) (P.pK (P.initState (bytesAt s k 16) (P.iv i)))) ?_
    intro j hj
    rw [Nat.zero_add]
    refine runs_bind (runs_get hs (by omega)) ?_
    rw [curBit_eq]
    refine runs_bind (runs_addLoc O _ _ rfl (by omega) (by omega)) ?_
    rw [List.range_succ, List.foldl_append]
    exact O.runs_pB (by rw [length_xorAt]; exact hlen j)
  · refine runs_bind (runs_get hs (by omega)) ?_
    rw [curBit_eq]
    refine runs_bind (runs_addLoc O _ _ rfl (by omega) (by omega)) ?_
    refine runs_bind (O.runs_pK (by rw [length_xorAt]; exact hlen 127)) ?_
    exact runs_extract O _ (by omega) (by omega)

/-- State of the absorption after `j` bytes of `X`, permuting as soon as a block is full. -/
def eager (P : Params) (S X : List Byte) (j : Nat) : List Byte × Nat :=
  (xorAt (P.absFull S X (j / P.r)) 0 ((X.drop (j / P.r * P.r)).take (j % P.r)), P.r - j % P.r)

/-- The same after `j + 1` bytes but before the permutation call. -/
def half (P : Params) (S X : List Byte) (j : Nat) : List Byte × Nat :=
  (xorAt (eager P S X j).1 (j % P.r) [X.getD j 0], P.r - j % P.r - 1)

theorem length_eager (W : P.Wf) {S : List Byte} (X : List Byte) (hS : S.length = P.n) (j : Nat) :
    (eager P S X j).1.length = P.n := by
  simp [eager, Params.length_absFull W X hS]

theorem succ_div_mod {j r : Nat} (hr : 0 < r) :
    (j % r + 1 = r ∧ (j + 1) / r = j / r + 1 ∧ (j + 1) % r = 0) ∨
    (j % r + 1 < r ∧ (j + 1) / r = j / r ∧ (j + 1) % r = j % r + 1) := by
  have h := Nat.mod_lt j hr
  have e := Nat.div_add_mod j r
  by_cases hj : j % r + 1 = r
  · left
    have e2 : j + 1 = r * (j / r + 1) := by rw [Nat.mul_add, Nat.mul_one]; omega
    refine ⟨hj, ?_, ?_⟩
    · rw [e2, Nat.mul_div_cancel_left _ hr]
    · rw [e2, Nat.mul_mod_right]
  · right
    have e2 : j + 1 = (j % r + 1) + r * (j / r) := by omega
    refine ⟨by omega, ?_, ?_⟩
    · conv => lhs; rw [e2]
      rw [Nat.add_mul_div_left _ _ hr, Nat.div_eq_of_lt (by omega), Nat.zero_add]
    · conv => lhs; rw [e2]
      rw [Nat.add_mul_mod_self_left, Nat.mod_eq_of_lt (by omega)]

theorem half_state (S : List Byte) {X : List Byte} {j : Nat} (hj : j < X.length) :
    (half P S X j).1 = xorAt (P.absFull S X (j / P.r)) 0 ((X.drop (j / P.r * P.r)).take (j % P.r + 1)) := by
  have e := Nat.div_add_mod' j P.r
  have hl : ((X.drop (j / P.r * P.r)).take (j % P.r)).length = j % P.r := by simp; omega
  have hsnoc : (X.drop (j / P.r * P.r)).take (j % P.r + 1) =
      (X.drop (j / P.r * P.r)).take (j % P.r) ++ [X.getD j 0] := by
    rw [List.take_add_one]
    congr 1
    rw [List.getElem?_drop, e]
    simp [List.getD, hj]
  simp only [half, eager]
  rw [hsnoc, ← xorAt_append, hl, Nat.zero_add]

/-- Completing a block: the permutation turns `half j` into `eager (j+1)`. -/
theorem half_full (W : P.Wf) (S : List Byte) {X : List Byte} {j : Nat} (hj : j < X.length) (h0 : (half P S X j).2 = 0) :
    (P.pH (half P S X j).1, P.r) = eager P S X (j + 1) := by
  have hm := Nat.mod_lt j W.r_pos
  rcases succ_div_mod (j := j) W.r_pos with ⟨h1, h2, h3⟩ | ⟨h1, h2, h3⟩
  · rw [half_state S hj]
    simp only [eager, h2, h3, List.take_zero, xorAt_nil, Params.absFull_succ, h1, blk, Nat.sub_zero]
  · simp only [half] at h0; omega

theorem half_part (W : P.Wf) (S : List Byte) {X : List Byte} {j : Nat} (hj : j < X.length) (h0 : (half P S X j).2 ≠ 0) :
    half P S X j = eager P S X (j + 1) := by
  have hm := Nat.mod_lt j W.r_pos
  rcases succ_div_mod (j := j) W.r_pos with ⟨h1, h2, h3⟩ | ⟨h1, h2, h3⟩
  · simp only [half] at h0; omega
  · refine Prod.ext ?_ ?_
    · rw [half_state S hj]; simp only [eager, h2, h3]
    · simp only [eager, h3, half]; omega

theorem eager_zero (S X : List Byte) : eager P S X 0 = (S, P.r) := by
  simp [eager, Params.absFull_zero]

theorem eager_len (W : P.Wf) (S X : List Byte) (hS : S.length = P.n) :
    P.pH (xorAt (eager P S X X.length).1 (P.r - (eager P S X X.length).2) [0x80]) = P.absorb S (blocks P.r X) := by
  have hm := Nat.mod_lt X.length W.r_pos
  rw [Params.absorb_blocks W X hS]
  simp only [eager]
  rw [show P.r - (P.r - X.length % P.r) = X.length % P.r by omega,
    List.take_of_length_le (l := X.drop (X.length / P.r * P.r))]
  rw [List.length_drop]; have := Nat.div_add_mod' X.length P.r; omega

theorem half_offset (W : P.Wf) (S X : List Byte) (j : Nat) : P.r - (eager P S X j).2 = j % P.r := by
  have := Nat.mod_lt j W.r_pos
  simp only [eager]; omega

/-- Local variables of the lazy loop before iteration `j`. -/
def lazy (P : Params) (S X : List Byte) : Nat → List Byte × Nat
  | 0 => (S, P.r)
  | j + 1 => half P S X j

theorem runs_refill_zero {rounds avail : Nat} {S S' : List Byte} (h : avail = 0) (hp : Runs (G.permute S rounds) e s S' s) :
    Runs (refill G rounds S avail) e s (S', G.rHsz) s :=
  runs_if_true h (runs_bind hp (runs_pure _ _ _))

theorem runs_refill_pos {rounds avail : Nat} {S : List Byte} (h : avail ≠ 0) :
    Runs (refill G rounds S avail) e s (S, avail) s :=
  runs_if_false h (runs_pure _ _ _)

/-- `refill` turns the lazy state into the eager one. -/
theorem runs_norm (O : CfgOK G P) {S : List Byte} (X : List Byte) (hS : S.length = P.n) {j : Nat} (hj : j ≤ X.length) :
    Runs (refill G G.sH (lazy P S X j).1 (lazy P S X j).2) e s (eager P S X j) s := by
  cases j with
  | zero =>
    have := O.wf.r_pos
    rw [eager_zero]
    exact runs_refill_pos (by simp only [lazy]; omega)
  | succ j =>
    by_cases h0 : (half P S X j).2 = 0
    · rw [← half_full O.wf S (by omega) h0, ← O.rHsz]
      refine runs_refill_zero h0 (O.runs_pH ?_)
      simp [lazy, half, length_eager O.wf X hS]
    · rw [← half_part O.wf S (by omega) h0]
      exact runs_refill_pos h0

theorem runs_addByte (O : CfgOK G P) {S : List Byte} (X : List Byte) (j : Nat) (d : Byte) (hd : d = X.getD j 0) :
    Runs (addBytes G (eager P S X j).1 (.loc [d]) (G.rHsz - (eager P S X j).2) 1) e s (half P S X j).1 s := by
  have := Nat.mod_lt j O.wf.r_pos
  have := O.wf.r_lt
  rw [O.rHsz, half_offset O.wf]
  subst hd
  exact runs_addLoc O _ _ rfl (by omega) (by omega)

theorem runs_absorbAd (O : CfgOK G P) {S : List Byte} {ad : Ptr} {n : Nat} (hS : S.length = P.n) (h : Readable e ad n) :
    Runs (absorbAd G S ad n) e s (lazy P S (bytesAt s ad n) n) s := by
  unfold absorbAd
  rw [O.rHsz]
  refine runs_forN_pure n 0 (lazy P S (bytesAt s ad n)) ?_
  intro j hj
  rw [Nat.zero_add, ← O.rHsz]
  refine runs_bind (runs_norm O (bytesAt s ad n) hS (j := j) (by simp; omega)) ?_
  exact runs_bind (runs_load8_at h hj) (runs_bind (runs_addByte O _ j _ rfl) (runs_pure _ _ _))

theorem runs_absorbC (O : CfgOK G P) {S : List Byte} {c : Ptr} {n : Nat} (hS : S.length = P.n) (h : Readable e c n) :
    Runs (absorbC G S c n) e s (eager P S (bytesAt s c n) n) s := by
  unfold absorbC
  rw [show (S, G.rHsz) = eager P S (bytesAt s c n) 0 by rw [eager_zero, O.rHsz]]
  refine runs_forN_pure n 0 (eager P S (bytesAt s c n)) ?_
  intro j hj
  rw [Nat.zero_add]
  refine runs_bind (runs_load8_at h hj) (runs_bind (runs_addByte O _ j _ rfl) ?_)
  exact runs_norm O (bytesAt s c n) hS (j := j + 1) (by simp; omega)

theorem macOK (O : CfgOK G P) : MacOK P .byBytes (isapMac G) := by
  intro e s k npub ad adlen c clen _ _ _ _ _ _ hk hnp had hc _ _
  have hn := O.wf.n_ge
  have hr := O.wf.r_lt
  have hN : (bytesAt s npub 16).length = 16 := by simp
  have hI := O.wf.len_pH (Params.length_initState O.wf 1 hN)
  refine runs_bind (runs_addBytes O _ (src := .ext npub) hnp (by omega) (by omega)) ?_
  refine runs_bind (runs_addLoc O _ _ rfl (by omega) (by omega)) ?_
  show Runs (G.permute (xorAt (xorAt _ _ (bytesAt s npub 16)) _ _) _ >>= _) _ _ _ _
  rw [initState_eq O hN]
  refine runs_bind (O.runs_pH (Params.length_initState O.wf 1 hN)) ?_
  refine runs_bind (runs_absorbAd O hI had) ?_
  refine runs_bind (runs_norm O (bytesAt s ad adlen) hI (j := adlen) (by simp)) ?_
  have hE := eager_len O.wf _ (bytesAt s ad adlen) hI
  have hEl := length_eager O.wf (bytesAt s ad adlen) hI adlen
  rw [length_bytesAt] at hE
  have hm := Nat.mod_lt adlen O.wf.r_pos
  have hm2 := Nat.mod_lt clen O.wf.r_pos
  refine runs_bind (runs_addLoc O _ _ rfl (by rw [O.rHsz, half_offset O.wf]; omega)
    (by rw [O.rHsz, half_offset O.wf]; omega)) ?_
  rw [O.rHsz]
  refine runs_bind (O.runs_pH (by simp [hEl])) ?_
  rw [hE]
  have hA := Params.length_absorb O.wf (bytesAt s ad adlen) hI
  refine runs_bind (runs_addLoc O _ _ rfl (by rw [O.n]; omega) (by rw [O.n]; omega)) ?_
  rw [O.n, ← Params.domSep_eq O.wf hA]
  have hD : (P.domSep (P.absorb (P.pH (P.initState (bytesAt s npub 16) (P.iv 1))) (blocks P.r (bytesAt s ad adlen)))).length = P.n := by
    rw [Params.domSep_eq O.wf hA, length_xorAt, hA]
  refine runs_bind (runs_absorbC O hD hc) ?_
  have hC := eager_len O.wf _ (bytesAt s c clen) hD
  have hCl := length_eager O.wf (bytesAt s c clen) hD clen
  rw [length_bytesAt] at hC
  refine runs_bind (runs_addLoc O _ _ rfl (by rw [half_offset O.wf]; omega) (by rw [half_offset O.wf]; omega)) ?_
  refine runs_bind (O.runs_pH (by simp [hCl])) ?_
  rw [hC]
  have hS := Params.length_absorb O.wf (bytesAt s c clen) hD
  refine runs_bind (runs_extract O _ (by omega) (by omega)) ?_
  refine runs_bind (runs_isapRk O 2 hk (src := .loc _) ?_ (by omega)) ?_
  · simp only [Src.Ok, List.length_take, List.length_drop, hS]; omega
  refine runs_bind (runs_overwrite O hS (src := .loc _) ?_ (by omega) (by omega)) ?_
  · rw [Src.Ok, Params.length_rk O.wf 2 16 (by simp) ?_ (by omega)]
    · omega
    · simp only [Src.bytes, List.length_take, List.length_drop, hS]; omega
  have hk16 : (Src.loc (List.take 16 (List.drop 0 (P.absorb (P.domSep (P.absorb (P.pH (P.initState (bytesAt s npub 16) (P.iv 1)))
      (blocks P.r (bytesAt s ad adlen)))) (blocks P.r (bytesAt s c clen)))))).bytes s 16 =
      List.take 16 (P.absorb (P.domSep (P.absorb (P.pH (P.initState (bytesAt s npub 16) (P.iv 1)))
      (blocks P.r (bytesAt s ad adlen)))) (blocks P.r (bytesAt s c clen))) := by
    simp [Src.bytes, List.take_take]
  rw [hk16]
  have hkl := Params.length_rk O.wf (K := bytesAt s k 16) (Y := List.take 16 (P.absorb (P.domSep (P.absorb (P.pH (P.initState (bytesAt s npub 16) (P.iv 1)))
      (blocks P.r (bytesAt s ad adlen)))) (blocks P.r (bytesAt s c clen)))) 2 16 (by simp) (by simp [hS]; omega) (by omega)
  refine runs_bind (O.runs_pH ?_) ?_
  · simp [Src.bytes, hkl, hS]; omega
  refine runs_eq (runs_extract O _ (by omega) (by omega)) ?_
  simp only [Params.mac, Params.ivA, Params.ivKA, Src.bytes, List.drop_zero, List.take_zero, List.nil_append, Nat.zero_add]
  rw [List.take_of_length_le (l := P.rk _ _ _ 16) (by omega)]

theorem repeat_len (W : P.Wf) {S : List Byte} (hS : S.length = P.n) (i : Nat) : (Nat.repeat P.pE i S).length = P.n := by
  induction i with
  | zero => exact hS
  | succ i ih => exact W.len_pE ih

theorem encOK (O : CfgOK G P) : EncOK P .byBytes (isapEnc G) := by
  intro e s k npub m mlen c _ _ _ _ _ hk hnp hm hc hov
  have hn := O.wf.n_ge
  have hr := O.wf.r_lt
  have hrp := O.wf.r_pos
  have hkl := Params.length_rk O.wf (K := bytesAt s k 16) (Y := bytesAt s npub 16) 3 (P.n - 16) (by simp) (by simp) (by omega)
  have hIl := Params.length_encInit O.wf (K := bytesAt s k 16) (N := bytesAt s npub 16) (by simp) (by simp)
  unfold isapEnc
  rw [O.n]
  refine runs_bind (runs_isapRk O 3 hk (src := .ext npub) hnp (by omega)) ?_
  simp only [Src.bytes]
  refine runs_bind (s' := s) (a := P.encInit (bytesAt s k 16) (bytesAt s npub 16)) ?_ ?_
  · refine runs_eq (runs_overwrite O (src := .ext npub) ?_ hnp (by omega) (by omega)) ?_
    · simp [hkl]; omega
    · simp only [Src.bytes, Params.encInit, Params.ivKE]
      rw [List.take_left' hkl, List.drop_eq_nil_of_le (by simp [hkl]), List.append_nil]
  generalize hI : P.encInit (bytesAt s k 16) (bytesAt s npub 16) = I at *
  generalize hX : P.enc (bytesAt s k 16) (bytesAt s npub 16) (bytesAt s m mlen) = X
  have hXl : X.length = mlen := by rw [← hX]; simp
  rw [O.rHsz]
  let sv : Nat → List Byte × Nat := fun i => (Nat.repeat P.pE ((i + P.r - 1) / P.r) I, if i % P.r = 0 then 0 else P.r - i % P.r)
  let ss : Nat → St := fun i => putBytes s c (X.take i)
  have key : Runs (forN mlen 0 (fun i (x : List Byte × Nat) => (do
      let x ← refill G G.sE x.1 x.2
      let ks ← extractBytes G x.1 (i % P.r) 1
      let d ← load8 (m + i)
      store8 (c + i) (d ^^^ ks.getD 0 0)
      pure (x.1, x.2 - 1) : CM (List Byte × Nat))) (sv 0)) e (ss 0) (sv mlen) (ss mlen) := by
    refine runs_forN mlen 0 sv ss ?_
    intro j hj
    rw [Nat.zero_add]
    have hjm := Nat.mod_lt j hrp
    have hee := Nat.div_add_mod j P.r
    refine runs_bind (a := (Nat.repeat P.pE (j / P.r + 1) I, P.r - j % P.r)) (s' := ss j) ?_ ?_
    · by_cases h0 : j % P.r = 0
      · have e1 : (j + P.r - 1) / P.r = j / P.r := by
          rw [show j + P.r - 1 = (P.r - 1) + P.r * (j / P.r) by omega, Nat.add_mul_div_left _ _ hrp,
            Nat.div_eq_of_lt (by omega), Nat.zero_add]
        simp only [sv, h0, e1, if_true, Nat.sub_zero]
        rw [← O.rHsz]
        exact runs_refill_zero rfl (O.runs_pE (repeat_len O.wf hIl _))
      · have e1 : (j + P.r - 1) / P.r = j / P.r + 1 := by
          rw [show j + P.r - 1 = (j % P.r - 1) + P.r * (j / P.r + 1) by rw [Nat.mul_add, Nat.mul_one]; omega,
            Nat.add_mul_div_left _ _ hrp, Nat.div_eq_of_lt (by omega), Nat.zero_add]
        simp only [sv, if_neg h0, e1]
        exact runs_refill_pos (by omega)
    · refine runs_bind (runs_extract O _ (by omega) (by omega)) ?_
      have hd : (ss j).mem m.blk (m.off + j) = s.mem m.blk (m.off + j) := by
        have := bytesAt_ahead s (bs := X.take j) (i := j) (w := 1) hov (by simp; omega) (by omega)
        simpa [bytesAt] using this
      refine runs_bind (runs_load8 (hm j hj)) ?_
      simp only [add_blk, add_off]
      rw [hd]
      refine runs_bind (s' := ss (j + 1)) (runs_eq2 (runs_store8 (hc.add (by omega))) rfl ?_) ?_
      · have hlt : (X.take j).length = j := by simp; omega
        have hjX : j < X.length := by omega
        have ha := putBytes_append s c (X.take j) [X[j]]
        rw [hlt] at ha
        simp only [ss]
        rw [List.take_add_one (i := j) (l := X), List.getElem?_eq_getElem hjX, Option.toList_some, ← ha]
        congr 2
        subst hX
        simp only [Params.enc, List.getElem_mapIdx, getElem_bytesAt, Params.keystream, hI]
        congr 1
        simp [List.getD]
      · refine runs_eq (runs_pure _ _ _) ?_
        simp only [sv]
        rcases succ_div_mod (j := j) hrp with ⟨h1, h2, h3⟩ | ⟨h1, h2, h3⟩
        · rw [h3, if_pos rfl, show j + 1 + P.r - 1 = j + P.r by omega, Nat.add_div_right _ hrp]
          refine Prod.ext rfl ?_
          simp only; omega
        · rw [h3, if_neg (by omega), show j + 1 + P.r - 1 = j + P.r by omega, Nat.add_div_right _ hrp]
          refine Prod.ext rfl ?_
          simp only; omega
  have e0 : sv 0 = (I, 0) := by
    simp only [sv, Nat.zero_mod, if_true]
    rw [Nat.div_eq_of_lt (by omega)]; rfl
  have es0 : ss 0 = s := by simp [ss]
  have esm : ss mlen = putBytes s c X := by simp only [ss]; rw [List.take_of_length_le (by omega)]
  rw [e0, es0, esm] at key
  exact runs_bind key (runs_pure _ _ _)

end Model.Ref
