import Verif.Model.A128aAvx
import Verif.Proof.A128
import Verif.Proof.K128Perm
import Verif.Proof.Api
/-!
# The AVX-512 version of ISAP-A-128a computes the specification
-/

namespace Model

theorem MacOK.shrink {P : Spec.Params} {al tal n n' : Nat} {ext : Nat → Nat}
    {mac : (k npub ad : C.Ptr) → (adlen : Nat) → (c : C.Ptr) → (clen : Nat) → C.CM (List Byte)} (h : MacOK P ⟨al, tal, n, ext⟩ mac)
    (hn : n' ≤ n) : MacOK P ⟨al, tal, n', ext⟩ mac :=
  fun e s k npub ad adlen c clen a1 a2 a3 a4 h1 h2 h3 h4 h5 h6 h7 h8 =>
    h e s k npub ad adlen c clen a1 a2 a3 a4 (Nat.lt_of_lt_of_le h1 hn) (Nat.lt_of_lt_of_le h2 hn) h3 h4 h5 h6 h7 h8

theorem EncOK.shrink {P : Spec.Params} {al tal n n' : Nat} {ext : Nat → Nat}
    {enc : (k npub m : C.Ptr) → (mlen : Nat) → (c : C.Ptr) → C.CM Unit} (h : EncOK P ⟨al, tal, n, ext⟩ enc)
    (hn : n' ≤ n) : EncOK P ⟨al, tal, n', ext⟩ enc :=
  fun e s k npub m mlen c a1 a2 a3 a4 h1 h2 h3 h4 h5 h6 =>
    h e s k npub m mlen c a1 a2 a3 a4 (Nat.lt_of_lt_of_le h1 hn) h2 h3 h4 h5 h6

end Model

namespace Model.A128.Avx
open C Spec Spec.Ascon
open Opt64 (u64big p12 padByte isapRk absorbLanes rkRes lanesW runs_padLane u64big_le64 toLe64_u64big u64big_u64big)

variable {e : Env} {s : St}

/-! ## Permutations -/

theorem p1_eq (S : State) : p1 S = p 1 S := by
  simp only [p1, Opt.seqRounds, List.foldl_cons, List.foldl_nil, Opt64.round_spec]
  rfl

theorem p6_eq (S : State) : p6 S = p 6 S := by
  simp only [p6, Opt.seqRounds, List.foldl_cons, List.foldl_nil, Opt64.round_spec]
  rfl

theorem cfgOK (d : DataModel) : Opt64.CfgOK (cfg d) p isapA128a where
  isAscon := ⟨rfl, rfl, rfl⟩
  sH := rfl
  sK := rfl
  iv _ := rfl
  pH := Opt64.p12_eq
  pB := p1_eq
  pE := p6_eq

theorem roundLane_spec (S : State) (c : BitVec 64) : roundLane S c = lin (sub { S with x2 := S.x2 ^^^ c }) := by
  rw [sub_eq]
  simp only [roundLane, Simd.tern_96, Simd.tern_d2, Simd.tern_69, lin, subSliced, sigma, State.mk.injEq]
  refine ⟨?_, ?_, ?_, ?_, ?_⟩
  · trivial
  · ac_rfl
  · rw [Opt.Opt64.rotr_not _ _ (by omega), Opt.Opt64.rotr_not _ _ (by omega)]
    generalize ((_ : BitVec 64).rotateRight 1) = u
    generalize ((_ : BitVec 64).rotateRight _) = v
    generalize (S.x2 ^^^ c ^^^ S.x1 ^^^ ~~~S.x3 &&& (S.x4 ^^^ S.x3)) = w
    apply BitVec.eq_of_getLsbD_eq; intro i hi
    simp only [BitVec.getLsbD_not, BitVec.getLsbD_xor, hi, decide_true, Bool.true_and]
    generalize u.getLsbD i = a
    generalize v.getLsbD i = b
    generalize w.getLsbD i = d
    revert a b d; decide
  · trivial
  · trivial

/-- The constants of `P6_avx_first` in the low lane are those of six rounds. -/
theorem p6first_lo (x : Two) : (p6first x).lo = p 6 x.lo := by
  simp only [p6first, List.foldl_cons, List.foldl_nil, roundAvx, roundLane_spec]
  rfl

theorem p6second_lo (x : Two) : (p6second x).lo = p 6 x.lo := by
  simp only [p6second, List.foldl_cons, List.foldl_nil, roundAvx, roundLane_spec]
  rfl

/-- Both together are twelve rounds in the high lane. -/
theorem p6_hi (x y : Two) (h : y.hi = (p6first x).hi) : (p6second y).hi = p 12 x.hi := by
  simp only [p6second, List.foldl_cons, List.foldl_nil, roundAvx, roundLane_spec, h, p6first]
  rfl

/-! ## Bytes -/

theorem le64_cons {B : List Byte} (d : Byte) : le64 (d :: B) = (le64 B <<< 8) ||| d.setWidth 64 := by
  apply BitVec.eq_of_getLsbD_eq
  intro i hi
  rw [getLsbD_le64 _ hi, BitVec.getLsbD_or, BitVec.getLsbD_shiftLeft, BitVec.getLsbD_setWidth]
  by_cases h8 : i < 8
  · rw [show i / 8 = 0 by omega, show i % 8 = i by omega]
    simp [h8, hi]
  · rw [show i / 8 = (i - 8) / 8 + 1 by omega, List.getD_cons_succ, getLsbD_le64 _ (by omega), show (i - 8) % 8 = i % 8 by omega,
      BitVec.getLsbD_of_ge d i (by omega)]
    simp [h8, hi]

theorem toLe64_le64_short {B : List Byte} (h : B.length ≤ 8) : toLe64 (le64 B) = B ++ zeros (8 - B.length) := by
  apply ext_getD (n := 8) (by simp) (by simp [zeros]; omega)
  intro i hi j hj
  rw [getLsbD_toLe64 _ hi hj, getLsbD_le64 _ (by omega), show (8 * i + j) / 8 = i by omega, show (8 * i + j) % 8 = j by omega]
  congr 1
  simp only [List.getD, List.getElem?_append, zeros, List.getElem?_replicate]
  split
  · rfl
  · rename_i h
    rw [List.getElem?_eq_none (l := B) (by omega)]
    split <;> rfl

theorem runs_loadMsg {q : Ptr} {n : Nat} (h : Readable e q n) :
    Runs (loadMsg q n) e s (le64 (bytesAt s q n)) s := by
  have hl : (bytesAt s q n).length = n := by simp
  have := runs_forN_pure (e := e) (s := s) n 0 (fun j => le64 ((bytesAt s q n).drop (n - j)))
    (f := fun i (t : BitVec 64) => do
      let d ← load8 (q + (n - i - 1))
      pure ((t <<< 8) ||| d.setWidth 64)) (by
    intro j hj
    rw [Nat.zero_add]
    refine runs_bind (runs_load8 (by simpa using h (n - j - 1) (by omega))) (Opt.runs_pure_eq ?_)
    rw [show n - j = (n - j - 1) + 1 by omega, show n - (j + 1) = n - j - 1 by omega]
    rw [List.drop_eq_getElem_cons (i := n - j - 1) (by omega), getElem_bytesAt, le64_cons]
    rfl)
  rw [Nat.sub_zero, Nat.sub_self, List.drop_zero, List.drop_of_length_le (by omega)] at this
  exact this

/-- A store of the first bytes of a word. -/
theorem runs_storeLane {c : Ptr} {x : BitVec 64} {n : Nat} (hn : n ≤ 8) (hc : Writable e c n) :
    Runs (storeLane c x n) e s () (putBytes s c ((toLe64 x).take n)) := by
  have := runs_forN (e := e) n 0 (fun _ => ()) (fun j => putBytes s c ((toLe64 x).take j))
    (f := fun i (_ : Unit) => do
      let d ← (Src.loc (toLe64 x)).get i
      store8 (c + i) d) (by
    intro j hj
    rw [Nat.zero_add]
    have hy : (Src.loc (toLe64 x)).Ok e 8 := by simp [Src.Ok]
    refine runs_bind (runs_get hy (i := j) (by omega)) ?_
    refine runs_eq2 (runs_store8 (hc.add (by omega))) rfl ?_
    have hjT : j < (toLe64 x).length := by simp; omega
    have ha := putBytes_append s c ((toLe64 x).take j) [(toLe64 x)[j]]
    rw [show ((toLe64 x).take j).length = j by simp; omega] at ha
    rw [List.take_add_one (i := j) (l := toLe64 x), List.getElem?_eq_getElem hjT, Option.toList_some, ← ha]
    congr 2
    simp only [Src.bytes]
    rw [List.take_of_length_le (by simp), List.getD, List.getElem?_eq_getElem hjT, Option.getD_some])
  simp only [List.take_zero, putBytes_nil] at this
  exact this

/-- One piece of the ciphertext. -/
theorem piece_eq {B : List Byte} (S : State) (h : B.length ≤ 8) :
    (toLe64 (u64big S.x0 ^^^ le64 B)).take B.length = xorBytes B ((be64 S.x0).take B.length) := by
  rw [toLe64_xor, toLe64_u64big, toLe64_le64_short h]
  simp only [xorBytes, List.take_zipWith]
  rw [List.take_left' rfl, List.zipWith_comm]
  congr 1
  funext a b
  exact BitVec.xor_comm ..

theorem runs_fullLane {src : Ptr} {rem : Nat} (hr : 8 ≤ rem) (h : Readable e src 8) :
    Runs (forN 8 0 (padByte src rem) []) e s (bytesAt s src 8) s := by
  refine runs_eq (runs_forN_pure 8 0 (fun j => (bytesAt s src 8).take j) ?_) ?_
  · intro j hj
    rw [Nat.zero_add]
    unfold padByte
    refine runs_if_true (show j < rem by omega) ?_
    refine runs_bind (runs_load8_at h hj) (Opt.runs_pure_eq ?_)
    have hl : j < (bytesAt s src 8).length := by simpa using hj
    rw [List.take_succ_eq_append_getElem hl, List.getD, List.getElem?_eq_getElem hl, Option.getD_some]
  · rw [List.take_of_length_le]
    simp

/-! ## The loops -/

theorem u64_natCast {n : Nat} (h : n < 2 ^ 64) : u64 n = n := by
  unfold u64
  omega

/-- Number of iterations of the first loop. -/
def iters (n : Nat) : Nat := max 1 ((n + 15) / 16)

theorem runs_doWhile {σ : Type} {f : Int → σ → CM σ} {n : Nat} (sv : Nat → σ) (ss : Nat → St)
    (h : ∀ j, j = 0 ∨ 16 * j < n → Runs (f ((n : Int) - 16 * j) (sv j)) e (ss j) (sv (j + 1)) (ss (j + 1))) :
    Runs (doWhile f n (sv 0)) e (ss 0) (sv (iters n)) (ss (iters n)) := by
  have key : ∀ k j, (j = 0 ∨ 16 * j < n) → j + k + 1 = iters n →
      Runs (doWhile f ((n : Int) - 16 * j) (sv j)) e (ss j) (sv (iters n)) (ss (iters n)) := by
    intro k
    induction k with
    | zero =>
      intro j hj hk
      rw [doWhile]
      refine runs_bind (h j hj) ?_
      rw [if_neg (by simp only [iters] at hk; omega)]
      rw [← hk]
      exact runs_bind (runs_branch _ _ _) (runs_pure _ _ _)
    | succ k ih =>
      intro j hj hk
      rw [doWhile]
      refine runs_bind (h j hj) ?_
      rw [if_pos (by simp only [iters] at hk; omega)]
      refine runs_bind (runs_branch _ _ _) ?_
      have := ih (j + 1) (by simp only [iters] at hk; omega) (by omega)
      rwa [show (n : Int) - 16 * ((j + 1 : Nat) : Int) = (n : Int) - 16 * j - 16 by omega] at this
  have := key (iters n - 1) 0 (.inl rfl) (by simp only [iters]; omega)
  rwa [show (n : Int) - 16 * ((0 : Nat) : Int) = n by omega] at this

/-- The second loop absorbs the rest of the ciphertext, from block `i` on. -/
theorem runs_macRest {d : DataModel} {c : Ptr} {n : Nat} (hn : n < 2 ^ 63) (hd : n < d.ulong) (hc : Readable e c n) (D : State) (i : Nat) (hi : 8 * i ≤ n) :
    Runs (macRest d c ((n : Int) - 8 * i) (8 * i) (absW p 12 D (bytesAt s c n) i)) e s (absorbW p 12 D (bytesAt s c n)) s := by
  generalize hk : n - 8 * i = k
  induction k using Nat.strongRecOn generalizing i with
  | _ k ih =>
    have hu : u64 ((n : Int) - 8 * i) = n - 8 * i := by unfold u64; omega
    rw [macRest, if_pos (by omega)]
    refine runs_bind (runs_branch _ _ _) ?_
    by_cases h8 : 8 * i + 8 ≤ n
    · refine runs_bind (a := bytesAt s (c + 8 * i) 8) (s' := s) ?_ ?_
      · unfold macLane
        rw [hu]
        exact runs_fullLane (by omega) (hc.add (by omega))
      · have := ih (n - 8 * (i + 1)) (by omega) (i + 1) (by omega) rfl
        rw [nextIdx, hu, Nat.min_eq_left (by omega), Nat.mod_eq_of_lt (by omega), u64big_le64, Opt64.p12_eq]
        rw [show (n : Int) - 8 * ((i + 1 : Nat) : Int) = (n : Int) - 8 * i - 8 by omega, Nat.mul_add] at this
        have hb : bytesAt s (c + 8 * i) 8 = blk 8 (bytesAt s c n) i := by
          rw [blk, bytesAt_drop, bytesAt_take _ _ _ _ (by omega), Nat.mul_comm]
        rw [hb]
        exact this
    · refine runs_bind (a := bytesAt s (c + 8 * i) (n - 8 * i) ++ [0x80] ++ zeros (7 - (n - 8 * i))) (s' := s) ?_ ?_
      · unfold macLane
        rw [hu]
        exact runs_padLane (by omega) (hc.add (by omega))
      · rw [macRest, if_neg (by omega)]
        refine runs_bind (runs_branch _ _ _) (Opt.runs_pure_eq ?_)
        rw [u64big_le64, ofBe64_append_zeros, Opt64.p12_eq, absorbW, length_bytesAt, show n / 8 = i by omega, bytesAt_drop,
          Nat.mul_comm i 8]

/-! ## `isap_mac_enc` -/

theorem p12_lanesW (S : State) (A : List Byte) : p 12 (lanesW p S A) = absorbW p 12 S A := rfl

attribute [local irreducible] Spec.Ascon.p

/-- What is absorbed and where in the first loop: the state before iteration `j`. -/
def macAt (S : State) (A X : List Byte) : Nat → State
  | 0 => lanesW p S A
  | j + 1 => absW p 12 { absorbW p 12 S A with x4 := (absorbW p 12 S A).x4 ^^^ 1 } X j

/-- The variables before iteration `j`. -/
def locAt (I S : State) (A X : List Byte) (n j : Nat) : Loc :=
  ⟨⟨Nat.repeat (p 6) (2 * j) I, macAt S A X j⟩, min (16 * j) n, 8 * (j - 1), (n : Int) - (8 * (j - 1) : Nat), if j = 0 then 1 else 0⟩

theorem runs_encbytes1 {n j : Nat} (_ : n < 2 ^ 63) (hj : 16 * j ≤ n) :
    Runs (encbytes1 ((n : Int) - 16 * j)) e s (min 8 (n - 16 * j)) s := by
  unfold encbytes1
  by_cases h : (n : Int) - 16 * j ≥ 8
  · exact runs_if_true h (Opt.runs_pure_eq (by omega))
  · refine runs_if_false h (Opt.runs_pure_eq ?_)
    unfold u64
    omega

theorem runs_encbytes2 {n j : Nat} (hn : n < 2 ^ 63) (hj : 16 * j ≤ n) :
    Runs (encbytes2 ((n : Int) - 16 * j) (min 8 (n - 16 * j))) e s (min 8 (n - 16 * j - 8)) s := by
  unfold encbytes2
  have hu : u64 ((n : Int) - 16 * j - (min 8 (n - 16 * j) : Nat)) = n - 16 * j - 8 := by
    unfold u64
    omega
  rw [hu]
  by_cases h : n - 16 * j - 8 ≥ 8
  · exact runs_if_true h (Opt.runs_pure_eq (by omega))
  · refine runs_if_false h ?_
    by_cases h : min 8 (n - 16 * j) < 8
    · exact runs_if_true h (Opt.runs_pure_eq (by omega))
    · exact runs_if_false h (Opt.runs_pure_eq (by omega))

/-- `x4 ^= domain_separation` happens in the first iteration, together with the last permutation of the associated data; in the
others a block of the ciphertext is absorbed. -/
theorem runs_macInput {d : DataModel} {c : Ptr} {n j : Nat} (hn : n < 2 ^ 63) (hd : n < d.ulong) (hj : j = 0 ∨ 16 * j < n) (S : State) (A X : List Byte) (hX : X.length = n)
    (hc : Readable e c n) :
    ∃ w, Runs (macInput d c n ((n : Int) - 16 * j) (8 * (j - 1)) ((n : Int) - (8 * (j - 1) : Nat))) e (putBytes s c (X.take (16 * j)))
        (w, 8 * (j + 1 - 1), (n : Int) - (8 * (j + 1 - 1) : Nat)) (putBytes s c (X.take (16 * j))) ∧
      ∀ T : State, T = p 12 { macAt S A X j with x0 := (macAt S A X j).x0 ^^^ w } →
        { T with x4 := T.x4 ^^^ (if j = 0 then 1 else 0) } = macAt S A X (j + 1) := by
  unfold macInput
  cases j with
  | zero =>
    refine ⟨0, runs_if_false ?_ ?_, ?_⟩
    · unfold u64
      omega
    · exact runs_pure _ _ _
    · rintro T rfl
      have h0 : { lanesW p S A with x0 := (lanesW p S A).x0 ^^^ 0 } = lanesW p S A := by
        rw [show (lanesW p S A).x0 ^^^ 0 = (lanesW p S A).x0 from BitVec.xor_zero]
      simp only [macAt, if_true, absW]
      rw [h0, p12_lanesW]
  | succ j =>
    refine ⟨ofBe64 (blk 8 X j), runs_if_true ?_ ?_, ?_⟩
    · unfold u64
      omega
    · have hu : u64 ((n : Int) - (8 * (j + 1 - 1) : Nat)) = n - 8 * j := by
        unfold u64
        omega
      have hb : bytesAt (putBytes s c (X.take (16 * (j + 1)))) (c + 8 * j) 8 = blk 8 X j := by
        have := bytesAt_putBytes_same' s c (X.take (16 * (j + 1))) (n := 16 * (j + 1)) (by simp; omega)
        rw [blk, Nat.mul_comm j 8, ← bytesAt_take _ (c + 8 * j) (16 * (j + 1) - 8 * j) 8 (by omega), ← bytesAt_drop, this,
          List.drop_take, List.take_take, Nat.min_eq_left (by omega)]
      refine runs_bind (a := blk 8 X j) ?_ (Opt.runs_pure_eq ?_)
      · unfold macLane
        rw [hu, ← hb]
        exact runs_fullLane (by omega) (hc.add (by omega))
      · rw [u64big_le64, nextIdx, hu, Nat.min_eq_left (by omega), Nat.mod_eq_of_lt (by omega)]
        simp only [Prod.mk.injEq, true_and]
        omega
    · rintro T rfl
      simp only [macAt, if_neg (Nat.succ_ne_zero j), absW]
      rw [show ∀ x : BitVec 64, x ^^^ 0 = x from fun _ => BitVec.xor_zero]

/-- Storing the next piece of the ciphertext. -/
theorem put_piece {K N : List Byte} (hK : K.length = 16) (hN : N.length = 16) {m c : Ptr} {n i w : Nat} {X : List Byte}
    (hX : X = isapA128a.enc K N (bytesAt s m n)) (hw : w ≤ 8) (h : 8 * i + w ≤ n) :
    putBytes (putBytes s c (X.take (8 * i))) (c + 8 * i)
      (xorBytes (bytesAt s (m + 8 * i) w) ((be64 (Nat.repeat (p 6) (i + 1) (encW p isapA128a K N)).x0).take w)) =
    putBytes s c (X.take (8 * i + w)) := by
  have hXl : X.length = n := by rw [hX]; simp [Params.enc]
  have hks : ksBlock isapA128a K N i = be64 (Nat.repeat (p 6) (i + 1) (encW p isapA128a K N)).x0 := by
    rw [ksBlock, (cfgOK .lp64).isAscon.encInit_words hK hN, (cfgOK .lp64).isAscon.repeat_words, (cfgOK .lp64).isAscon.r]
    exact take8 _
  have hp := Params.enc_piece isapA128a (cfgOK .lp64).isAscon.wf K N (bytesAt s m n) hK hN (i := i) (w := w) hw
    (by show i * 8 + w ≤ _; rw [Nat.mul_comm]; simpa using h)
  rw [show i * isapA128a.r = 8 * i from Nat.mul_comm ..] at hp
  rw [← hX, bytesAt_drop, bytesAt_take _ _ _ _ (by omega)] at hp
  have ha := putBytes_append s c (X.take (8 * i)) ((X.drop (8 * i)).take w)
  rw [show (X.take (8 * i)).length = 8 * i by simp; omega] at ha
  rw [List.take_add, ← ha, hp]
  congr 2
  rw [← hks, ksBlock, List.take_take, Nat.min_eq_left (show w ≤ isapA128a.r from hw)]

theorem runs_body {d : DataModel} {K N : List Byte} (hK : K.length = 16) (hN : N.length = 16) {m c : Ptr} {n j : Nat} {X : List Byte}
    (hX : X = isapA128a.enc K N (bytesAt s m n)) (hn : n < 2 ^ 63) (hd : n < d.ulong) (hj : j = 0 ∨ 16 * j < n)
    (hov : OverlapOK c m n) (hm : Readable e m n) (hc : Writable e c n) (S : State) (A : List Byte) :
    Runs (body d m c n ((n : Int) - 16 * j) (locAt (encW p isapA128a K N) S A X n j)) e (putBytes s c (X.take (16 * j)))
      (locAt (encW p isapA128a K N) S A X n (j + 1)) (putBytes s c (X.take (16 * (j + 1)))) := by
  have hj' : 16 * j ≤ n := by omega
  have hXl : X.length = n := by rw [hX]; simp [Params.enc]
  have hI : min (16 * j) n = 8 * (2 * j) := by omega
  obtain ⟨w, hw1, hw2⟩ := runs_macInput (s := s) hn hd hj S A X hXl hc.readable
  unfold body
  simp only [locAt]
  rw [hI]
  refine runs_bind (runs_encbytes1 hn hj') ?_
  refine runs_bind (runs_encbytes2 hn hj') ?_
  generalize hn1 : min 8 (n - 16 * j) = n1
  generalize hn2 : min 8 (n - 16 * j - 8) = n2
  refine runs_bind (runs_loadMsg (hm.add (by omega))) ?_
  refine runs_bind (runs_loadMsg (hm.add (by omega))) ?_
  rw [bytesAt_ahead s hov (by simp; omega) (by omega), bytesAt_ahead s hov (by simp; omega) (by omega)]
  refine runs_bind hw1 ?_
  simp only [p6second_lo, p6first_lo]
  generalize hI : encW p isapA128a K N = I
  have hr : ∀ i, p 6 (Nat.repeat (p 6) i I) = Nat.repeat (p 6) (i + 1) I := fun i => rfl
  rw [hr, hr]
  refine runs_bind (runs_storeLane (by omega) (hc.add (by omega))) ?_
  have e1 : ∀ q i w, (toLe64 (u64big (Nat.repeat (p 6) (i + 1) I).x0 ^^^ le64 (bytesAt s q w))).take w =
      if w ≤ 8 then xorBytes (bytesAt s q w) ((be64 (Nat.repeat (p 6) (i + 1) I).x0).take w) else
        (toLe64 (u64big (Nat.repeat (p 6) (i + 1) I).x0 ^^^ le64 (bytesAt s q w))).take w := by
    intro q i w
    split
    · have := piece_eq (B := bytesAt s q w) (Nat.repeat (p 6) (i + 1) I) (by simpa)
      rwa [length_bytesAt] at this
    · rfl
  rw [e1, if_pos (show n1 ≤ 8 by omega)]
  have p1 := put_piece (s := s) hK hN (c := c) (i := 2 * j) (w := n1) hX (by omega) (by omega)
  rw [show 16 * j = 8 * (2 * j) by omega, ← hI, p1, hI]
  refine runs_bind (a := ()) (s' := putBytes s c (X.take (16 * (j + 1)))) ?_ ?_
  · refine runs_eq2 (runs_storeLane (by omega) (hc.add (by omega))) rfl ?_
    rw [e1, if_pos (show n2 ≤ 8 by omega)]
    by_cases h8 : n1 = 8
    · have p2 := put_piece (s := s) hK hN (c := c) (i := 2 * j + 1) (w := n2) hX (by omega) (by omega)
      rw [h8, show 8 * (2 * j) + 8 = 8 * (2 * j + 1) by omega, ← hI, p2]
      congr 1
      by_cases h : 16 * (j + 1) ≤ n
      · congr 1; omega
      · rw [List.take_of_length_le (by omega), List.take_of_length_le (by omega)]
    · have : n2 = 0 := by omega
      subst this
      rw [bytesAt_zero]
      rw [show xorBytes [] _ = ([] : List Byte) from rfl, putBytes_nil]
      rw [List.take_of_length_le (by omega), List.take_of_length_le (by omega)]
  · refine Opt.runs_pure_eq ?_
    have hT := hw2 _ (p6_hi ⟨Nat.repeat (p 6) (2 * j) I, { macAt S A X j with x0 := (macAt S A X j).x0 ^^^ w }⟩ _ rfl)
    simp only [Loc.mk.injEq, Two.mk.injEq, true_and]
    refine ⟨⟨rfl, ?_⟩, ?_, ?_⟩
    · exact hT
    · rw [Nat.mod_eq_of_lt (by omega)]
      omega
    · rw [if_neg (Nat.succ_ne_zero j)]
      split <;> decide

theorem runs_start {d : DataModel} {k npub ad : Ptr} {adlen : Nat} (hda : adlen < d.ulong) (hlk : Aligned e 8 k 16) (hln : Aligned e 8 npub 16) (hla : Aligned e 8 ad adlen)
    (hk : Readable e k 16) (hnp : Readable e npub 16) (had : Readable e ad adlen) :
    Runs (start d k npub ad adlen) e s
      ⟨encW p isapA128a (bytesAt s k 16) (bytesAt s npub 16),
        lanesW p (p 12 (initW (bytesAt s npub 16) (isapA128a.iv 1))) (bytesAt s ad adlen)⟩ s := by
  unfold start
  refine runs_bind (Opt64.runs_isapRk (cfgOK d) 3 _ 24 hlk hk (y := .ext npub) hnp) ?_
  refine runs_bind (runs_load64 (hln.add (by decide) (by omega)) (hnp.add (by omega))) ?_
  refine runs_bind (runs_load64 (hln.add (by decide) (by omega)) (hnp.add (by omega))) ?_
  refine runs_bind (runs_load64 (hln.add (by decide) (by omega)) (hnp.add (by omega))) ?_
  refine runs_bind (runs_load64 (hln.add (by decide) (by omega)) (hnp.add (by omega))) ?_
  rw [u64big_le64, u64big_le64, u64big_le64, Opt64.p12_eq]
  refine runs_bind (Opt64.runs_absorbLanes Opt64.p12_eq _ hda hla had) (Opt.runs_pure_eq ?_)
  have h8 : ofBe64 (bytesAt s (npub + 0) 8) = ofBe64 (bytesAt s npub 16) := by
    rw [← ofBe64_take (bytesAt s npub 16), bytesAt_take _ _ _ _ (by omega)]
    rfl
  have h8' : ofBe64 (bytesAt s (npub + 8) 8) = ofBe64 ((bytesAt s npub 16).drop 8) := by
    rw [bytesAt_drop]
  rw [h8, h8']
  simp only [rkRes, if_true, u64big_u64big, Src.bytes]
  rfl

/-- `isap_mac_enc` stores the ciphertext and returns its tag. -/
theorem runs_isapMacEnc {d : DataModel} {k npub ad c m : Ptr} {adlen mlen : Nat} (hlk : Aligned e 8 k 16) (hln : Aligned e 8 npub 16)
    (hla : Aligned e 8 ad adlen) (hda : adlen < d.ulong) (hn : mlen < 2 ^ 63) (hd : mlen < d.ulong)
    (hk : Readable e k 16) (hnp : Readable e npub 16) (had : Readable e ad adlen)
    (hm : Readable e m mlen) (hc : Writable e c mlen) (hov : OverlapOK c m mlen) (hck : Disjoint c mlen k 16) {X : List Byte}
    (hX : isapA128a.enc (bytesAt s k 16) (bytesAt s npub 16) (bytesAt s m mlen) = X) :
    Runs (isapMacEnc d k npub ad adlen c m mlen) e s
      (isapA128a.mac (bytesAt s k 16) (bytesAt s npub 16) (bytesAt s ad adlen) X) (putBytes s c X) := by
  have hXl : X.length = mlen := by rw [← hX]; simp [Params.enc]
  have hbk : bytesAt (putBytes s c X) k 16 = bytesAt s k 16 :=
    bytesAt_putBytes_disjoint _ _ _ _ _ (by rw [hXl]; exact hck.symm)
  rw [(cfgOK .lp64).isAscon.mac_words _ _ (by simp) (by simp)]
  unfold isapMacEnc
  refine runs_bind (runs_start hda hlk hln hla hk hnp had) ?_
  have hi : i64 mlen = (mlen : Int) := by rw [i64, if_pos hn]
  rw [hi]
  generalize hS0 : p 12 (initW (bytesAt s npub 16) (isapA128a.iv 1)) = S0
  generalize hA : bytesAt s ad adlen = A
  have hloop := runs_doWhile (e := e) (f := body d m c mlen) (n := mlen)
    (locAt (encW p isapA128a (bytesAt s k 16) (bytesAt s npub 16)) S0 A X mlen) (fun j => putBytes s c (X.take (16 * j)))
    (fun j hj => runs_body (by simp) (by simp) hX.symm hn hd hj hov hm hc S0 A)
  have hit : 1 ≤ iters mlen ∧ mlen ≤ 16 * iters mlen ∧ (iters mlen = 1 ∨ 16 * (iters mlen - 1) < mlen) := by
    unfold iters
    omega
  generalize iters mlen = J at *
  simp only [Nat.mul_zero, List.take_zero, putBytes_nil] at hloop
  rw [List.take_of_length_le (l := X) (i := 16 * J) (by omega)] at hloop
  have hl0 : locAt (encW p isapA128a (bytesAt s k 16) (bytesAt s npub 16)) S0 A X mlen 0 =
      ⟨⟨encW p isapA128a (bytesAt s k 16) (bytesAt s npub 16), lanesW p S0 A⟩, 0, 0, mlen, 1⟩ := by
    simp only [locAt, Loc.mk.injEq]
    refine ⟨rfl, ?_, trivial, ?_, rfl⟩ <;> omega
  rw [hl0] at hloop
  refine runs_bind hloop ?_
  obtain ⟨J, rfl⟩ : ∃ J', J = J' + 1 := ⟨J - 1, by omega⟩
  generalize hD : { absorbW p 12 S0 A with x4 := (absorbW p 12 S0 A).x4 ^^^ 1 } = D
  have hrest := runs_macRest (e := e) (s := putBytes s c X) hn hd hc.readable D J (by omega)
  rw [bytesAt_putBytes_same' _ _ _ hXl] at hrest
  simp only [locAt, macAt, Nat.add_sub_cancel, hD]
  rw [show ((8 * J : Nat) : Int) = 8 * (J : Int) by omega]
  refine runs_bind hrest ?_
  have hmac : macSt p isapA128a (bytesAt s npub 16) A X = absorbW p 12 D X := by
    rw [← hD, ← hS0]; rfl
  generalize hS : absorbW p 12 D X = S at *
  refine runs_bind (Opt64.runs_isapRk (cfgOK d) 2 _ 16 hlk hk (y := .loc _) ?_) ?_
  · simp [Src.Ok]
  have hY : (Src.loc (toLe64 (u64big S.x0) ++ toLe64 (u64big S.x1))).bytes (putBytes s c X) 16 =
      be64 S.x0 ++ be64 S.x1 := by
    simp only [toLe64_u64big, Src.bytes]
    rw [List.take_of_length_le (by simp)]
  rw [hY, hbk]
  refine Opt.runs_pure_eq ?_
  rw [toLe64_u64big, toLe64_u64big, Opt64.p12_eq]
  simp only [rkRes, Nat.reduceEqDiff, if_false, u64big_u64big, macW, hmac]
  rfl

/-! ## The API -/

/-- Requirements of this implementation: the lengths are kept in `long long` variables. -/
def limits (d : DataModel) : Limits := ⟨8, 8, min (2 ^ 63) d.ulong, id⟩

theorem encryptOK (d : DataModel) : EncryptOK isapA128a (limits d) (aead d).encrypt := by
  intro e s a V B
  obtain ⟨hm63, hmd⟩ := Nat.lt_min.1 (show a.mlen < min (2 ^ 63) d.ulong from B.mlen_lt)
  have hda := (Nat.lt_min.1 (show a.adlen < min (2 ^ 63) d.ulong from B.adlen_lt)).2
  generalize hs1 : putBytes s a.clen (toLe64 (BitVec.ofNat 64 (a.mlen + 16))) = s1
  have b1 : ∀ p n, Disjoint a.clen 8 p n → bytesAt s1 p n = bytesAt s p n := by
    intro p n h
    rw [← hs1, bytesAt_putBytes_disjoint _ _ _ _ _ (by simpa using h.symm)]
  have hk := b1 _ _ V.clen_k
  have hN := b1 _ _ V.clen_npub
  have hA := b1 _ _ V.clen_ad
  have hM := b1 _ _ V.clen_m
  generalize hX : isapA128a.enc (bytesAt s a.k 16) (bytesAt s a.npub 16) (bytesAt s a.m a.mlen) = X
  have hXl : X.length = a.mlen := by rw [← hX]; simp
  have hrun := runs_isapMacEnc (e := e) (s := s1) (X := X) B.k B.npub B.ad hda hm63 hmd V.k V.npub V.ad V.m (V.c.mono (by omega)) V.c_m
    (V.c_k.mono (by omega) (Nat.le_refl _)) (by rw [hk, hN, hM, hX])
  rw [hk, hN, hA] at hrun
  have hT := Spec.Params.length_mac (cfgOK .lp64).isAscon.wf (K := bytesAt s a.k 16) (N := bytesAt s a.npub 16) (bytesAt s a.ad a.adlen) X
    (by simp) (by simp)
  refine ⟨_, runs_bind (runs_storeLen V.clen) (runs_bind (hs1 ▸ hrun)
    (runs_bind (runs_storeTag B.tag (by decide) hT (V.c.add (by omega))) (runs_pure _ _ _))), ?_⟩
  have := putBytes_append s1 a.c X (isapA128a.mac (bytesAt s a.k 16) (bytesAt s a.npub 16) (bytesAt s a.ad a.adlen) X)
  rw [hXl] at this
  rw [hs1, this]
  simp only [Spec.Params.encrypt, hX]

theorem decryptOK (d : DataModel) : DecryptOK isapA128a (limits d) (tagEq isapA128a) (aead d).decrypt :=
  Model.decryptOK (I := impl d) (cfgOK d).isAscon.wf (fun _ => Nat.le_add_right ..)
    ((Opt64.macOK (cfgOK d)).shrink (Nat.min_le_right ..)) ((Opt64.encOK (cfgOK d)).shrink (Nat.min_le_right ..))

end Model.A128.Avx
