import Verif.Model.BoundsK128
import Verif.Proof.BoundsA128
/-!
# The optimized ISAP-K-128a and ISAP-K-128 versions never leave their arrays
-/

namespace Model.K128
open C
open A128.Opt64.Chk (areads_all)

theorem length_xorMem (S : List Byte) (off : Nat) (bs : List Byte) : (xorMem S off bs).length = S.length := by
  have key : ∀ (l : List Nat) (S : List Byte),
      (l.foldl (fun S i => S.modify (off + i) (· ^^^ bs.getD i 0)) S).length = S.length := by
    intro l
    induction l with
    | nil => intro S; rfl
    | cons a l ih => intro S; rw [List.foldl_cons, ih, List.length_modify]
  exact key _ _

theorem xorArr_eq {S : List Byte} {off : Nat} {bs : List Byte} (h : off + bs.length ≤ S.length) :
    xorArr (Arr.of S) off bs = .ret (Arr.of (xorMem S off bs)) := by
  have key : ∀ (n i : Nat) (S : List Byte), off + i + n ≤ S.length →
      loopN n i (fun i S => do
        let x ← aget S (off + i)
        aset S (off + i) (x ^^^ bs.getD i 0)) (Arr.of S) =
        .ret (Arr.of ((List.range' i n).foldl (fun S i => S.modify (off + i) (· ^^^ bs.getD i 0)) S)) := by
    intro n
    induction n with
    | zero => intro i S _; rfl
    | succ n ih =>
      intro i S hS
      have hi : off + i < S.length := by omega
      rw [loopN, aget_of hi, ret_bind, aset_of hi, ret_bind, List.range'_succ, List.foldl_cons, ← ih]
      · congr 2
        apply List.ext_getElem?
        intro j
        by_cases hj : off + i = j
        · subst hj; simp [hi]
        · simp [hj]
      · simp; omega
  unfold xorArr xorMem
  rw [List.range_eq_range']
  exact key bs.length 0 S (by omega)

/-- The arrays have the same, fixed length. -/
abbrev RS (n : Nat) : Arr Byte → List Byte → Prop := fun a b => a = Arr.of b ∧ b.length = n

theorem xorArr_chk {n : Nat} {S : List Byte} {off : Nat} {bs : List Byte} (hS : S.length = n) (h : off + bs.length ≤ n) :
    Chk (RS n) (xorArr (Arr.of S) off bs) (pure (xorMem S off bs)) := by
  rw [xorArr_eq (by omega)]
  exact .ret ⟨rfl, by rw [length_xorMem, hS]⟩

theorem loads_chk (al w n : Nat) (p : Ptr) : Chk (fun a b => a = b ∧ b.length = w * n) (loads al w n p) (loads al w n p) := by
  induction n generalizing p with
  | zero => exact .ret ⟨rfl, rfl⟩
  | succ n ih =>
    unfold loads
    refine (chk_load al w p).bind ?_
    rintro a _ ⟨rfl, ha⟩
    refine (ih _).bind ?_
    rintro b _ ⟨rfl, hb⟩
    exact .ret ⟨rfl, by rw [List.length_append, ha, hb, Nat.mul_succ, Nat.add_comm]⟩

/-! ## The permutations -/

namespace Opt64.Chk

theorem length_unwords (A : KeccakRef.Lanes) : (KeccakRef.unwords A).length = 50 := by
  simp [KeccakRef.unwords, List.length_flatMap, List.map_const']

theorem roundsPT_eq (n i : Nat) (x : KeccakRef.Lanes × Par) (h : i + n ≤ 20) : roundsPT i n x = .ret (Opt64.roundsPT i n x) := by
  induction n generalizing i x with
  | zero => rfl
  | succ n ih =>
    rw [roundsPT, aget_ofD 0 (show i < roundConstants.length from Nat.lt_of_lt_of_le (by omega : i < i + (n + 1)) h), ret_bind,
      ih _ _ (by omega), Opt64.roundsPT]

theorem roundsX_eq (n : Nat) (hn : n ≤ 20) (hp : 0 < n) (A : KeccakRef.Lanes) : roundsX n A = .ret (Opt64.roundsX n A) := by
  rw [roundsX, roundsPT_eq _ _ _ (by omega), ret_bind, aget_ofD 0 (by decide), ret_bind, pure_ret, Opt64.roundsX]

theorem rounds1X_eq (A : KeccakRef.Lanes) : rounds1X A = .ret (Opt64.rounds1X A) := by
  rw [rounds1X, aget_ofD 0 (by decide), ret_bind, pure_ret, Opt64.rounds1X]

theorem onBytes_chk {f : KeccakRef.Lanes → CM KeccakRef.Lanes} {g : KeccakRef.Lanes → KeccakRef.Lanes}
    (h : ∀ A, f A = .ret (g A)) (S : List Byte) (hS : S.length = 50) :
    onBytes f (Arr.of S) = .ret (Arr.of (KeccakRef.unwords (g (KeccakRef.words S)))) ∧
      (KeccakRef.unwords (g (KeccakRef.words S))).length = 50 := by
  unfold onBytes
  rw [areads_all hS, ret_bind, h, ret_bind]
  exact ⟨rfl, length_unwords _⟩

end Opt64.Chk

namespace Avx.Chk

theorem roundLoop_eq (n i : Nat) (A : V) (h : i + n ≤ 20) : roundLoop i n A = .ret (Avx.roundLoop i n A) := by
  induction n generalizing i A with
  | zero => rfl
  | succ n ih =>
    rw [roundLoop, aget_ofD 0 (show i < Opt64.roundConstants.length from Nat.lt_of_lt_of_le (by omega : i < i + (n + 1)) h),
      ret_bind, ih _ _ (by omega), Avx.roundLoop]

theorem perm_chk (n : Nat) (hn : n ≤ 20) (S : List Byte) (hS : S.length = 64) :
    perm n (Arr.of S) = .ret (Arr.of (Avx.perm n S)) ∧ (Avx.perm n S).length = 64 := by
  unfold perm Avx.perm
  rw [areads_all hS, ret_bind, roundLoop_eq _ _ _ (by omega), ret_bind]
  refine ⟨rfl, ?_⟩
  simp [unwords, List.length_flatMap, List.map_const']

end Avx.Chk

/-! ## The mode -/

namespace Chk

/-- What is needed of the permutations, the tables and the loads of blocks; `n` is the size of the union `S`. -/
structure PrimsChk (n : Nat) (D : Prims) : Prop where
  n50 : 50 ≤ n
  cH : ∀ S, S.length = n → D.cH (Arr.of S) = .ret (Arr.of (D.pH S)) ∧ (D.pH S).length = n
  cB : ∀ S, S.length = n → D.cB (Arr.of S) = .ret (Arr.of (D.pB S)) ∧ (D.pB S).length = n
  cE : ∀ S, S.length = n → D.cE (Arr.of S) = .ret (Arr.of (D.pE S)) ∧ (D.pE S).length = n
  cK : ∀ S, S.length = n → D.cK (Arr.of S) = .ret (Arr.of (D.pK S)) ∧ (D.pK S).length = n
  iv : ∀ i, (D.iv i).length = 8
  padRk : ∀ i, 50 + (D.padRk i).length = n
  padMac : 50 + D.padMac.length = n
  padEnc : 50 + D.padEnc.length = n
  ldBlk : ∀ p, Chk (fun a b => a = b ∧ b.length = 18) (D.ldBlk p) (D.ldBlk p)
  ldMsg : ∀ p, Chk (fun a b => a = b ∧ b.length = 18) (D.ldMsg p) (D.ldMsg p)

theorem padByte_chk {n : Nat} (hn : 50 ≤ n) (src : Ptr) (rem i : Nat) (hi : i < 18) {a : Arr Byte} {b : List Byte}
    (h : RS n a b) : Chk (RS n) (padByte src rem i a) (K128.padByte src rem i b) := by
  obtain ⟨rfl, hb⟩ := h
  unfold padByte K128.padByte
  refine chk_if (fun _ => ?_) fun _ => chk_if (fun _ => ?_) fun _ => ?_
  · exact (chk_load8 _).bindEq fun d => xorArr_chk hb (by simp; omega)
  · exact xorArr_chk hb (by simp; omega)
  · exact .ret ⟨rfl, hb⟩

theorem initS_eq {n : Nat} {bs iv pad : List Byte} (hb : bs.length = 16) (hi : iv.length = 8) (hp : 50 + pad.length = n) :
    initS bs (Arr.of iv) pad = .ret (Arr.of (bs ++ iv ++ List.replicate 26 0 ++ pad)) ∧
    (bs ++ iv ++ List.replicate 26 0 ++ pad).length = n := by
  refine ⟨?_, by simp; omega⟩
  unfold initS
  rw [areads_all hi, ret_bind, awrites_eq (by simp [Arr.new]; omega), ret_bind, awrites_eq (by simp [Arr.new]; omega), ret_bind,
    awrites_eq (by simp [Arr.new]; omega)]
  have t : List.take 24 (List.map some bs) = List.map some bs := List.take_of_length_le (by simp; omega)
  have t1 : List.drop 50 (List.map some bs) = [] := List.drop_of_length_le (by simp; omega)
  have t2 : List.drop 34 (List.map some iv) = [] := List.drop_of_length_le (by simp; omega)
  simp [Arr.of, Arr.new, hb, hi, t, t1, t2, List.take_append, List.drop_append]

variable {n : Nat} {D : Prims} (P : PrimsChk n D)
include P

/-- A permutation after an exclusive or. -/
theorem xorP {f : Arr Byte → CM (Arr Byte)} {g : List Byte → List Byte}
    (hf : ∀ S, S.length = n → f (Arr.of S) = .ret (Arr.of (g S)) ∧ (g S).length = n) {S : List Byte} {off : Nat} {bs : List Byte}
    (hS : S.length = n) (h : off + bs.length ≤ 50) :
    Chk (RS n) (xorArr (Arr.of S) off bs >>= f) (pure (g (xorMem S off bs))) := by
  have := P.n50
  obtain ⟨e, hl⟩ := hf (xorMem S off bs) (by rw [length_xorMem, hS])
  rw [xorArr_eq (by omega), ret_bind, e]
  exact .ret ⟨rfl, hl⟩

theorem absorbMac_chk {a : Arr Byte} {b : List Byte} (h : RS n a b) (src : Ptr) (len : Nat) :
    Chk (RS n) (absorbMac D a src len) (K128.absorbMac D.toPrims b src len) := by
  unfold absorbMac K128.absorbMac
  refine chk_whileRem (R := RS n) ?_ ?_ ?_ _ _ h
  · rintro i _ b ⟨rfl, hb⟩
    refine (P.ldBlk _).bind ?_
    rintro d _ ⟨rfl, hd⟩
    exact xorP P P.cH hb (by omega)
  · rintro i _ b ⟨rfl, hb⟩
    refine (P.ldBlk _).bind ?_
    rintro d _ ⟨rfl, hd⟩
    have := P.n50
    refine .step (xorArr_eq (by omega)) ?_
    obtain ⟨e, hl⟩ := P.cH (xorMem b 0 d) (by rw [length_xorMem, hb])
    rw [e, ret_bind]
    exact xorP P P.cH hl (by simp)
  · rintro i r _ b hr ⟨rfl, hb⟩
    refine Chk.bind (R := RS n) (chk_forN' (R := RS n) ?_ ⟨rfl, hb⟩) ?_
    · rintro j x y _ hj hxy
      exact padByte_chk P.n50 _ _ _ (by omega) hxy
    · rintro _ S ⟨rfl, hS⟩
      obtain ⟨e, hl⟩ := P.cH S hS
      rw [e]
      exact .ret ⟨rfl, hl⟩

/-- The state before `out` is written. -/
theorem isapRk_chk (k : Ptr) (i : Nat) {x : CSrc} {y : Src} (h : SrcChk 16 x y) (out : Arr Byte) (outlen : Nat)
    (ho : (if outlen = 34 then 34 else 16) ≤ out.length) :
    Chk (fun a b => a = Arr.of b ++ out.drop b.length ∧ b.length = if outlen = 34 then 34 else 16)
      (isapRk D k i x out outlen) (K128.isapRk D.toPrims k i y outlen) := by
  have hn := P.n50
  unfold isapRk K128.isapRk
  refine (loads_chk 2 2 8 k).bind ?_
  rintro kb _ ⟨rfl, hk⟩
  obtain ⟨e, hl⟩ := initS_eq hk (P.iv i) (P.padRk i)
  rw [e, ret_bind]
  obtain ⟨e, hS⟩ := P.cK _ hl
  rw [e, ret_bind]
  refine Chk.bind (R := RS n) (chk_forN' (R := RS n) ?_ ⟨rfl, hS⟩) ?_
  · rintro j _ b _ hj ⟨rfl, hb⟩
    refine (chk_get h (by omega)).bind ?_
    rintro yb _ rfl
    exact xorP P P.cB hb (by simp)
  rintro _ S ⟨rfl, hS⟩
  refine (chk_get h (by omega)).bind ?_
  rintro yb _ rfl
  refine .step (xorArr_eq (by simp; omega)) ?_
  obtain ⟨e, hS⟩ := P.cK (xorMem S 0 [(yb &&& 1) <<< 7]) (by rw [length_xorMem, hS])
  rw [e, ret_bind]
  generalize D.pK (xorMem S 0 [(yb &&& 1) <<< 7]) = S at hS ⊢
  refine chk_if (fun hb => ?_) fun hb => ?_
  · have hb : outlen = 34 := of_decide_eq_true hb
    rw [if_pos hb] at ho
    rw [areads_of (by omega), ret_bind, awrites_eq (by simp; omega)]
    refine Chk.ret ⟨by simp, by simp [hb]; omega⟩
  · have hb : ¬ outlen = 34 := of_decide_eq_false hb
    rw [if_neg hb] at ho
    rw [areads_of (by omega), ret_bind, awrites_eq (by simp; omega)]
    refine Chk.ret ⟨by simp, by simp [hb]; omega⟩

theorem isapMac_chk (k npub ad : Ptr) (adlen : Nat) (c : Ptr) (clen : Nat) :
    Chk (fun a b => a = b ∧ b.length = 16) (isapMac D k npub ad adlen c clen) (K128.isapMac D.toPrims k npub ad adlen c clen) := by
  have hn := P.n50
  unfold isapMac K128.isapMac
  refine (loads_chk 2 2 8 npub).bind ?_
  rintro nb _ ⟨rfl, hk⟩
  obtain ⟨e, hl⟩ := initS_eq hk (P.iv 1) P.padMac
  rw [e, ret_bind]
  obtain ⟨e, hl⟩ := P.cH _ hl
  rw [e, ret_bind]
  refine (absorbMac_chk P ⟨rfl, hl⟩ ad adlen).bind ?_
  rintro _ S ⟨rfl, hS⟩
  refine .step (xorArr_eq (by simp; omega)) ?_
  refine (absorbMac_chk P ⟨rfl, by rw [length_xorMem, hS]⟩ c clen).bind ?_
  rintro _ S ⟨rfl, hS⟩
  have ht : ((S.drop 0).take 16).length = 16 := by simp; omega
  refine .step (areads_of (by omega)) ?_
  refine .step (awrites_all (by simp [Arr.new]; omega)) ?_
  refine (isapRk_chk P k 2 (x := .arr (Arr.of ((S.drop 0).take 16))) (y := .loc (S.take 16)) ⟨rfl, by simp; omega⟩ _ 16
    (by simp; omega)).bind ?_
  rintro _ y ⟨rfl, hy⟩
  have hy : y.length = 16 := hy
  have e : Arr.of y ++ (Arr.of ((S.drop 0).take 16)).drop y.length = Arr.of y := by simp [hy]; omega
  rw [e]
  refine .step (areads_all hy) ?_
  have e2 : awrites (Arr.of S) 0 y = .ret (Arr.of (y ++ S.drop 16)) := by
    rw [awrites_eq (by simp; omega)]
    simp [Arr.of, hy]
  rw [e2, ret_bind]
  obtain ⟨e, hl⟩ := P.cH (y ++ S.drop 16) (by simp; omega)
  rw [e, ret_bind, areads_of (by omega)]
  exact .ret ⟨by simp, by simp; omega⟩

theorem encBlock_chk (m c : Ptr) {S : List Byte} (hS : S.length = n) : Chk Eq (encBlock D m c (Arr.of S)) (K128.encBlock D.toPrims m c S) := by
  have hn := P.n50
  unfold encBlock K128.encBlock
  refine (P.ldMsg m).bind ?_
  rintro d _ ⟨rfl, hd⟩
  refine .step (areads_of (by omega)) ?_
  rw [List.drop_zero]
  exact chk_store _ _ _

theorem isapEnc_chk (k npub m : Ptr) (mlen : Nat) (c : Ptr) :
    Chk Eq (isapEnc D k npub m mlen c) (K128.isapEnc D.toPrims k npub m mlen c) := by
  have hn := P.n50
  unfold isapEnc K128.isapEnc
  refine (isapRk_chk P k 3 (x := .ext npub) (y := .ext npub) rfl (Arr.new 50) 34 (by simp [Arr.new])).bind ?_
  rintro _ key ⟨rfl, hk⟩
  have hk : key.length = 34 := hk
  have e1 : areads (Arr.of key ++ (Arr.new 50).drop key.length) 0 34 = .ret key := by
    have : ∀ (l : List Byte) (o : Nat) (t : Arr Byte), l.length = 34 - o → o ≤ 34 →
        ∀ p : Arr Byte, p.length = o → areads (p ++ (Arr.of l ++ t)) o (34 - o) = .ret l := by
      intro l
      induction l with
      | nil =>
        intro o t h1 h2 p hp
        have : 34 - o = 0 := by simpa using h1.symm
        rw [this]; rfl
      | cons x l ih =>
        intro o t h1 h2 p hp
        have h1 : l.length + 1 = 34 - o := h1
        have h3 : 34 - o = (34 - (o + 1)) + 1 := by omega
        have hg : aget (p ++ (Arr.of (x :: l) ++ t)) o = .ret x := by
          simp [aget, Arr.of, ← hp]; rfl
        have hr : p ++ (Arr.of (x :: l) ++ t) = (p ++ [some x]) ++ (Arr.of l ++ t) := by simp [Arr.of]
        rw [h3, areads, hg, ret_bind, hr, ih (o + 1) t (by omega) (by omega) (p ++ [some x]) (by simp [hp])]
        rfl
    exact this key 0 _ hk (by omega) [] rfl
  rw [e1, ret_bind]
  refine .step (awrites_eq (by simp [Arr.new]; omega)) ?_
  refine (loads_chk 2 2 8 npub).bind ?_
  rintro nb _ ⟨rfl, hnb⟩
  have hnb : nb.length = 16 := hnb
  have e2 : awrites ((Arr.new 50 ++ Arr.of D.padEnc).take 0 ++ Arr.of key ++ (Arr.new 50 ++ Arr.of D.padEnc).drop (0 + key.length))
      34 nb = .ret (Arr.of (key ++ nb ++ D.padEnc)) := by
    rw [awrites_eq (by simp [Arr.new]; omega)]
    simp [Arr.of, Arr.new, hk, hnb, List.drop_append]
  rw [e2, ret_bind]
  obtain ⟨e, hl⟩ := P.cE (key ++ nb ++ D.padEnc) (by have := P.padEnc; simp; omega)
  rw [e, ret_bind]
  refine Chk.bind (R := RS n) (chk_whileRem (R := RS n) ?_ ?_ ?_ _ _ ⟨rfl, hl⟩) fun _ _ _ => .ret rfl
  · rintro i _ S ⟨rfl, hS⟩
    exact (encBlock_chk P _ _ hS).bind fun _ _ _ => by
      obtain ⟨e, hl⟩ := P.cE S hS
      rw [e]
      exact .ret ⟨rfl, hl⟩
  · rintro i _ S ⟨rfl, hS⟩
    exact (encBlock_chk P _ _ hS).bind fun _ _ _ => .ret ⟨rfl, hS⟩
  · rintro i r _ S hr ⟨rfl, hS⟩
    refine Chk.bind (R := Eq) (chk_forN' (R := Eq) ?_ rfl) fun _ _ _ => .ret ⟨rfl, hS⟩
    rintro j _ _ _ hj rfl
    refine (chk_load8 _).bindEq fun d => ?_
    exact .step (aget_ofD 0 (by omega)) (chk_store8 _ _)

theorem implChk : ImplChk (impl D) (K128.impl D.toPrims) :=
  ⟨fun _ _ _ _ _ => isapEnc_chk P _ _ _ _ _, fun _ _ _ _ _ _ => isapMac_chk P _ _ _ _ _ _, rfl⟩

omit P

theorem ldBlk_chk (p : Ptr) : Chk (fun a b => a = b ∧ b.length = 18) (Opt64.ldBlk p) (Opt64.ldBlk p) := by
  unfold Opt64.ldBlk
  refine (chk_load _ _ _).bind ?_
  rintro a _ ⟨rfl, ha⟩
  refine (chk_load _ _ _).bind ?_
  rintro b _ ⟨rfl, hb⟩
  refine (chk_load _ _ _).bind ?_
  rintro d _ ⟨rfl, hd⟩
  exact .ret ⟨rfl, by simp [ha, hb, hd]⟩

theorem ldMsg_chk (p : Ptr) : Chk (fun a b => a = b ∧ b.length = 18) (Opt64.ldMsg p) (Opt64.ldMsg p) := by
  unfold Opt64.ldMsg
  refine (chk_load _ _ _).bind ?_
  rintro a _ ⟨rfl, ha⟩
  refine (chk_load _ _ _).bind ?_
  rintro b _ ⟨rfl, hb⟩
  refine (chk_load _ _ _).bind ?_
  rintro d _ ⟨rfl, hd⟩
  exact .ret ⟨rfl, by simp [ha, hb, hd]⟩

theorem primsChkK128a : PrimsChk 50 primsK128a :=
  ⟨Nat.le_refl _, Opt64.Chk.onBytes_chk (Opt64.Chk.roundsX_eq 16 (by decide) (by decide)),
    Opt64.Chk.onBytes_chk Opt64.Chk.rounds1X_eq, Opt64.Chk.onBytes_chk (Opt64.Chk.roundsX_eq 8 (by decide) (by decide)),
    Opt64.Chk.onBytes_chk (Opt64.Chk.roundsX_eq 8 (by decide) (by decide)), fun _ => rfl, fun _ => rfl, rfl, rfl, ldBlk_chk,
    ldMsg_chk⟩

theorem primsChkK128 : PrimsChk 50 primsK128 :=
  ⟨Nat.le_refl _, Opt64.Chk.onBytes_chk (Opt64.Chk.roundsX_eq 20 (by decide) (by decide)),
    Opt64.Chk.onBytes_chk (Opt64.Chk.roundsX_eq 12 (by decide) (by decide)),
    Opt64.Chk.onBytes_chk (Opt64.Chk.roundsX_eq 12 (by decide) (by decide)),
    Opt64.Chk.onBytes_chk (Opt64.Chk.roundsX_eq 12 (by decide) (by decide)), fun _ => rfl, fun _ => rfl, rfl, rfl, ldBlk_chk,
    ldMsg_chk⟩

theorem chk_load' (p : Ptr) : Chk (fun a b => a = b ∧ b.length = 18) (load 1 18 p) (load 1 18 p) :=
  (chk_load 1 18 p).imp fun _ _ h => ⟨h.1, h.1 ▸ h.2⟩

theorem length_junk (x : BitVec 112) : (Avx.junk x).length = 14 := by simp [Avx.junk]

theorem length_padRk (j : Avx.Junk) (i : Nat) : ((Avx.prims j).padRk i).length = 14 := by
  show (if i = 2 then Avx.junk j.rkMac else Avx.junk j.rkEnc).length = 14
  split <;> rw [length_junk]

/-- The permutations are those of `Avx.prims`. -/
theorem primsAvx_toPrims (j : Avx.Junk) : (primsAvx j).toPrims = Avx.prims j := by
  unfold primsAvx
  rfl

theorem avx_pH (j : Avx.Junk) : (primsAvx j).pH = Avx.perm 16 := by
  rw [primsAvx_toPrims, Avx.prims]
theorem avx_pB (j : Avx.Junk) : (primsAvx j).pB = Avx.perm 1 := by
  rw [primsAvx_toPrims, Avx.prims]
theorem avx_pE (j : Avx.Junk) : (primsAvx j).pE = Avx.perm 8 := by
  rw [primsAvx_toPrims, Avx.prims]
theorem avx_pK (j : Avx.Junk) : (primsAvx j).pK = Avx.perm 8 := by
  rw [primsAvx_toPrims, Avx.prims]

theorem primsChkAvx (j : Avx.Junk) : PrimsChk 64 (primsAvx j) where
  n50 := by omega
  cH := by rw [avx_pH]; exact Avx.Chk.perm_chk 16 (by omega)
  cB := by rw [avx_pB]; exact Avx.Chk.perm_chk 1 (by omega)
  cE := by rw [avx_pE]; exact Avx.Chk.perm_chk 8 (by omega)
  cK := by rw [avx_pK]; exact Avx.Chk.perm_chk 8 (by omega)
  iv _ := rfl
  padRk i := congrArg (50 + ·) (length_padRk j i)
  padMac := congrArg (50 + ·) (length_junk j.mac)
  padEnc := congrArg (50 + ·) (length_junk j.enc)
  ldBlk := chk_load'
  ldMsg := chk_load'

end Chk

/-! ## The versions for ARM -/

namespace Arm

namespace V7.Chk

theorem roundOdd_chk (fuel i : Nat) (hi : i ≤ 19) (h2 : i % 2 = 1) (B : Lanes) (q : Carry) :
    Chk Eq (roundOdd fuel i B q) (V7.roundOdd fuel i B q) := by
  induction fuel generalizing i B q with
  | zero => exact .ub (fun h => nomatch h)
  | succ fuel ih =>
    have hl : roundConstants.length = 21 := rfl
    rw [roundOdd, V7.roundOdd]
    refine .step (aget_ofD 0 (by omega)) (.step (aget_ofD 0 (by omega)) (chk_if (fun hb => ?_) fun _ => .ret rfl))
    have hb : roundConstants.getD (i + 1) 0 ≠ 0 := of_decide_eq_true hb
    have : i ≠ 19 := by rintro rfl; exact hb rfl
    exact ih _ (by omega) (by omega) _ _

theorem permute_chk (n : Nat) (hn : n ≤ 20) (hp : 0 < n) (A : Lanes) : Chk Eq (permute n A) (V7.permute n A) := by
  have hl : roundConstants.length = 21 := rfl
  unfold permute V7.permute
  refine chk_if (fun hb => ?_) fun hb => ?_
  · have hb : n % 2 = 0 := of_decide_eq_true hb
    refine .step (aget_ofD 0 (by omega)) ?_
    exact roundOdd_chk _ _ (by omega) (by omega) _ _
  · have hb : ¬ n % 2 = 0 := of_decide_eq_false hb
    exact roundOdd_chk _ _ (by omega) (by omega) _ _

end V7.Chk

namespace V6.Chk

theorem roundOdd_chk (fuel i : Nat) (hi : i ≤ 19) (h2 : i % 2 = 1) (B : Lanes) :
    Chk Eq (roundOdd fuel i B) (V6.roundOdd fuel i B) := by
  induction fuel generalizing i B with
  | zero => exact .ub (fun h => nomatch h)
  | succ fuel ih =>
    have hl : roundConstants.length = 21 := rfl
    rw [roundOdd, V6.roundOdd]
    refine .step (aget_ofD 0 (by omega)) (.step (aget_ofD 0 (by omega)) (chk_if (fun _ => .ret rfl) fun hb => ?_))
    have hb : ¬ roundConstants.getD (i + 1) 0 = 0x00FF := of_decide_eq_false hb
    have : i ≠ 19 := by rintro rfl; exact hb rfl
    exact ih _ (by omega) (by omega) _

theorem permute_chk (n : Nat) (hn : n ≤ 20) (hp : 0 < n) (A : Lanes) : Chk Eq (permute n A) (V6.permute n A) := by
  have hl : roundConstants.length = 21 := rfl
  unfold permute V6.permute
  refine chk_if (fun hb => ?_) fun hb => ?_
  · have hb : n % 2 = 0 := of_decide_eq_true hb
    refine .step (aget_ofD 0 (by omega)) ?_
    exact roundOdd_chk _ _ (by omega) (by omega) _
  · have hb : ¬ n % 2 = 0 := of_decide_eq_false hb
    exact roundOdd_chk _ _ (by omega) (by omega) _

end V6.Chk

namespace Chk

/-- What is needed of the permutation. -/
structure PrimsChk (D E : Prims) : Prop where
  perm : ∀ n A, n ≤ 20 → 0 < n → Chk Eq (D.permute n A) (E.permute n A)
  sH : D.sH = E.sH ∧ E.sH ≤ 20 ∧ 0 < E.sH
  sB : D.sB = E.sB ∧ E.sB ≤ 20 ∧ 0 < E.sB
  sE : D.sE = E.sE ∧ E.sE ≤ 20 ∧ 0 < E.sE
  sK : D.sK = E.sK ∧ E.sK ≤ 20 ∧ 0 < E.sK

variable {D E : Prims} (P : PrimsChk D E)
include P

theorem perm_chk {n n' : Nat} (h : n = n' ∧ n' ≤ 20 ∧ 0 < n') {S : List Byte} (hS : S.length = 50) :
    Chk (RS 50) (perm D n (Arr.of S)) (E.perm n' S) := by
  obtain ⟨rfl, h1, h2⟩ := h
  unfold perm Prims.perm
  rw [areads_all hS, ret_bind]
  refine (P.perm n _ h1 h2).bind ?_
  rintro A _ rfl
  exact Chk.pure ⟨rfl, Opt64.Chk.length_unwords _⟩

theorem iv_eq (i : Nat) : D.iv i = E.iv i := by
  unfold Prims.iv
  rw [P.sH.1, P.sB.1, P.sE.1, P.sK.1]

theorem xorP {n n' : Nat} (h : n = n' ∧ n' ≤ 20 ∧ 0 < n') {S : List Byte} {off : Nat} {bs : List Byte} (hS : S.length = 50)
    (hb : off + bs.length ≤ 50) : Chk (RS 50) (xorArr (Arr.of S) off bs >>= perm D n) (E.perm n' (xorMem S off bs)) := by
  rw [xorArr_eq (by omega), ret_bind]
  exact perm_chk P h (by rw [length_xorMem, hS])

omit P in
theorem loadsDown_chk (n : Nat) (p : Ptr) : Chk (fun a b => a = b ∧ b.length = n) (loadsDown n p) (loadsDown n p) := by
  unfold loadsDown
  refine (chk_forN (I := fun j (a b : List Byte) => a = b ∧ b.length = j) (n := n) (i := 0) ?_ ⟨rfl, rfl⟩).imp ?_
  · rintro j a _ _ hj ⟨rfl, ha⟩
    exact (chk_load8 _).bindEq fun d => .ret ⟨rfl, by simp [ha]⟩
  · rintro a _ ⟨rfl, ha⟩
    exact ⟨rfl, by omega⟩

theorem initState_chk (p : Ptr) (i : Nat) : Chk (RS 50) (initState D p i) (Arm.initState E p i) := by
  unfold initState Arm.initState
  refine .step (awrites_all (by simp [Arr.new])) ?_
  refine (loadsDown_chk 16 p).bind ?_
  rintro kb _ ⟨rfl, hk⟩
  refine .step (xorArr_eq (by simp [hk])) ?_
  refine .step (areads_all rfl) ?_
  rw [iv_eq P i]
  exact xorArr_chk (by rw [length_xorMem]; simp) (show 16 + 8 ≤ 50 by decide)

theorem isapRk_chk (k : Ptr) (i : Nat) {x : CSrc} {y : Src} (h : SrcChk 16 x y) (out : Arr Byte) (outlen : Nat)
    (ho : outlen ≤ out.length) (ho2 : outlen ≤ 50) :
    Chk (fun a b => a = Arr.of b ++ out.drop outlen ∧ b.length = outlen)
      (isapRk D k i x out outlen) (Arm.isapRk E k i y outlen) := by
  unfold isapRk Arm.isapRk
  refine (initState_chk P k i).bind ?_
  rintro _ S ⟨rfl, hS⟩
  refine (perm_chk P P.sK hS).bind fun a b hab => ?_
  refine Chk.bind (R := RS 50) (chk_forN' (R := RS 50) ?_ hab) ?_
  · rintro j _ b _ hj ⟨rfl, hb⟩
    refine (chk_get h (by omega)).bind ?_
    rintro yb _ rfl
    exact xorP P P.sB hb (by simp)
  rintro _ S ⟨rfl, hS⟩
  refine (chk_get h (by omega)).bind ?_
  rintro yb _ rfl
  refine .step (xorArr_eq (by simp; omega)) ?_
  refine (perm_chk P P.sK (by rw [length_xorMem, hS])).bind ?_
  rintro _ S ⟨rfl, hS⟩
  have hl : ((S.drop 0).take outlen).length = outlen := by simp; omega
  rw [areads_of (by omega), ret_bind, awrites_eq (by rw [hl]; omega), hl]
  exact Chk.ret ⟨by simp, by simp; omega⟩

theorem absorb_chk {a : Arr Byte} {b : List Byte} (h : RS 50 a b) (src : Ptr) (len : Nat) :
    Chk (RS 50) (absorb D a src len) (Arm.absorb E b src len) := by
  have hm : len % 18 < 18 := Nat.mod_lt _ (by decide)
  unfold absorb Arm.absorb
  refine Chk.bind (R := RS 50) (chk_whileGe (R := RS 50) ?_ _ _ h) ?_
  · rintro i _ b ⟨rfl, hb⟩
    refine (loads_chk 2 2 9 _).bind ?_
    rintro d _ ⟨rfl, hd⟩
    exact xorP P P.sH hb (by omega)
  rintro _ S ⟨rfl, hS⟩
  refine Chk.bind (R := RS 50) (chk_forN' (R := RS 50) ?_ ⟨rfl, hS⟩) ?_
  · rintro j _ b _ hj ⟨rfl, hb⟩
    exact (chk_load8 _).bindEq fun d => xorArr_chk hb (by simp; omega)
  rintro _ S ⟨rfl, hS⟩
  exact xorP P P.sH hS (by simp; omega)

theorem isapMac_chk (k npub ad : Ptr) (adlen : Nat) (c : Ptr) (clen : Nat) :
    Chk (fun a b => a = b ∧ b.length = 16) (isapMac D k npub ad adlen c clen) (Arm.isapMac E k npub ad adlen c clen) := by
  unfold isapMac Arm.isapMac
  refine (initState_chk P npub 1).bind ?_
  rintro _ S ⟨rfl, hS⟩
  refine (perm_chk P P.sH hS).bind fun a b h => (absorb_chk P h ad _).bind ?_
  rintro _ S ⟨rfl, hS⟩
  refine .step (xorArr_eq (by simp; omega)) ?_
  refine (absorb_chk P ⟨rfl, by rw [length_xorMem, hS]⟩ c _).bind ?_
  rintro _ S ⟨rfl, hS⟩
  refine .step (areads_of (by omega)) ?_
  refine .step (awrites_all (by simp [Arr.new]; omega)) ?_
  refine (isapRk_chk P k 2 (x := .arr (Arr.of ((S.drop 0).take 16))) (y := .loc (S.take 16)) ⟨rfl, by simp; omega⟩ (Arr.new 16) 16
    (by simp [Arr.new]) (by decide)).bind ?_
  rintro _ y ⟨rfl, hy⟩
  have e : Arr.of y ++ (Arr.new 16).drop 16 = Arr.of y := by simp [Arr.new]
  rw [e]
  refine .step (areads_all hy) ?_
  have e2 : awrites (Arr.of S) 0 y = .ret (Arr.of (y ++ S.drop 16)) := by
    rw [awrites_eq (by simp; omega)]
    simp [Arr.of, hy]
  rw [e2, ret_bind]
  refine (perm_chk P P.sH (by simp; omega)).bind ?_
  rintro _ S ⟨rfl, hS⟩
  rw [areads_of (by omega)]
  exact .ret ⟨by simp, by simp; omega⟩

omit P in
theorem encBlock_chk (m c : Ptr) {S : List Byte} (hS : S.length = 50) : Chk Eq (encBlock m c (Arr.of S)) (Arm.encBlock m c S) := by
  unfold encBlock Arm.encBlock
  refine Chk.bind (R := Eq) (chk_forN' (R := Eq) ?_ rfl) fun _ _ _ => .ret rfl
  rintro j _ _ _ hj rfl
  refine (chk_load _ _ _).bind ?_
  rintro d _ ⟨rfl, _⟩
  exact .step (areads_of (by omega)) (chk_store _ _ _)

theorem isapEnc_chk (k npub m : Ptr) (mlen : Nat) (c : Ptr) :
    Chk Eq (isapEnc D k npub m mlen c) (Arm.isapEnc E k npub m mlen c) := by
  unfold isapEnc Arm.isapEnc
  refine (isapRk_chk P k 3 (x := .ext npub) (y := .ext npub) rfl (Arr.new 50) 34 (by simp [Arr.new]) (by decide)).bind ?_
  rintro _ key ⟨rfl, hk⟩
  refine (loadsDown_chk 16 npub).bind ?_
  rintro nb _ ⟨rfl, hnb⟩
  have e2 : awrites (Arr.of key ++ (Arr.new 50).drop 34) 34 nb = .ret (Arr.of (key ++ nb)) := by
    rw [awrites_eq (by simp [Arr.new]; omega)]
    simp [Arr.of, Arr.new, hk, hnb]
  rw [e2, ret_bind]
  refine Chk.bind (R := RS 50) (chk_whileGe (R := RS 50) ?_ _ _ ⟨rfl, by simp; omega⟩) ?_
  · rintro i _ S ⟨rfl, hS⟩
    refine (perm_chk P P.sE hS).bind ?_
    rintro _ S ⟨rfl, hS⟩
    exact (encBlock_chk _ _ hS).bind fun _ _ _ => .ret ⟨rfl, hS⟩
  rintro _ S ⟨rfl, hS⟩
  refine chk_ifThen fun _ => (perm_chk P P.sE hS).bind ?_
  rintro _ S ⟨rfl, hS⟩
  refine Chk.bind (R := Eq) (chk_forN' (R := Eq) ?_ rfl) fun _ _ _ => .ret rfl
  rintro j _ _ _ hj rfl
  refine (chk_load8 _).bindEq fun d => ?_
  have := Nat.mod_lt (mlen % 2 ^ 32) (show 0 < 18 by decide)
  exact .step (aget_ofD 0 (by omega)) (chk_store8 _ _)

theorem implChk : ImplChk (impl D) (Arm.impl E) :=
  ⟨fun _ _ _ _ _ => isapEnc_chk P _ _ _ _ _, fun _ _ _ _ _ _ => isapMac_chk P _ _ _ _ _ _, rfl⟩

omit P

theorem primsChkK128aV7 : PrimsChk primsK128aV7 Arm.primsK128aV7 :=
  ⟨fun n A h h' => V7.Chk.permute_chk n h h' A, by decide, by decide, by decide, by decide⟩
theorem primsChkK128aV6 : PrimsChk primsK128aV6 Arm.primsK128aV6 :=
  ⟨fun n A h h' => V6.Chk.permute_chk n h h' A, by decide, by decide, by decide, by decide⟩
theorem primsChkK128V7 : PrimsChk primsK128V7 Arm.primsK128V7 :=
  ⟨fun n A h h' => V7.Chk.permute_chk n h h' A, by decide, by decide, by decide, by decide⟩
theorem primsChkK128V6 : PrimsChk primsK128V6 Arm.primsK128V6 :=
  ⟨fun n A h h' => V6.Chk.permute_chk n h h' A, by decide, by decide, by decide, by decide⟩

end Chk
end Arm
end Model.K128
