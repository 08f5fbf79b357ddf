import Verif.Model.BoundsOpt
import Verif.Proof.Checked
/-!
# The optimized ISAP-A-128a versions never leave their arrays
-/

namespace Model
open C

/-! ## The API -/

/-- What the API needs of a checked implementation. -/
structure ImplChk (I J : Impl) : Prop where
  enc : ∀ k npub m mlen c, Chk Eq (I.enc k npub m mlen c) (J.enc k npub m mlen c)
  mac : ∀ k npub ad adlen c clen,
    Chk (fun a b => a = b ∧ b.length = 16) (I.mac k npub ad adlen c clen) (J.mac k npub ad adlen c clen)
  al : I.tagAlign = J.tagAlign

theorem storeTag_chk (al : Nat) (p : Ptr) (tag : List Byte) : Chk Eq (storeTag al p tag) (storeTag al p tag) := by
  unfold storeTag
  exact chk_forN' (R := Eq) (fun j _ _ _ _ _ => chk_store al (p + al * j) ((tag.drop (al * j)).take al)) rfl

theorem encrypt_chk {I J : Impl} (H : ImplChk I J) (c clen m : Ptr) (mlen : Nat) (ad : Ptr) (adlen : Nat) (nsec npub k : Ptr) :
    Chk Eq (encrypt I c clen m mlen ad adlen nsec npub k) (encrypt J c clen m mlen ad adlen nsec npub k) := by
  unfold encrypt
  refine (chk_storeLen _ _).bindEq fun _ => ?_
  refine Chk.bind (R := Eq) (chk_ifThen fun _ => H.enc _ _ _ _ _) fun _ _ _ => ?_
  refine (H.mac _ _ _ _ _ _).bind ?_
  rintro t _ ⟨rfl, _⟩
  rw [H.al]
  exact (storeTag_chk _ _ _).bindEq fun _ => .ret rfl

theorem decrypt_chk {I J : Impl} (H : ImplChk I J) (m mlen nsec c : Ptr) (clen : Nat) (ad : Ptr) (adlen : Nat) (npub k : Ptr) :
    Chk Eq (Chk.decrypt I m mlen nsec c clen ad adlen npub k) (decrypt J m mlen nsec c clen ad adlen npub k) := by
  unfold Chk.decrypt decrypt
  refine (chk_storeLen _ _).bindEq fun _ => (chk_loadLen _).bindEq fun l => ?_
  refine (H.mac _ _ _ _ _ _).bind ?_
  rintro t _ ⟨rfl, ht⟩
  refine .step (awrites_all (by simp [Arr.new, ht])) ?_
  refine Chk.bind (R := Eq) (chk_forN' (R := Eq) ?_ rfl) ?_
  · rintro j x _ _ hj rfl
    refine (chk_loadLen _).bindEq fun l => (chk_load8 _).bindEq fun b => ?_
    exact .step (aget_ofD 0 (by omega)) (.ret rfl)
  · rintro cnt _ rfl
    refine chk_if (fun _ => ?_) fun _ => .ret rfl
    refine (chk_loadLen _).bindEq fun l => ?_
    refine Chk.bind (R := Eq) (chk_ifThen fun _ => ?_) fun _ _ _ => .ret rfl
    exact (chk_loadLen _).bindEq fun l => H.enc _ _ _ _ _

/-- What is proved of an implementation. -/
structure AeadChk (A B : Aead) : Prop where
  enc : ∀ a, Chk Eq (A.encrypt a) (B.encrypt a)
  dec : ∀ a, Chk Eq (A.decrypt a) (B.decrypt a)

theorem ImplChk.aead {I J : Impl} (H : ImplChk I J) : AeadChk (Chk.aead I) J.aead :=
  ⟨fun a => encrypt_chk H _ _ _ _ _ _ a.nsec _ _, fun a => decrypt_chk H _ _ a.nsec _ _ _ _ _ _⟩

/-! ## The mode -/

namespace Opt.Chk

/-- The permutations do not fail with `UB.localOob`. -/
structure Quiet (D : Prims) : Prop where
  pH : ∀ s, Chk Eq (D.pH s) (D.pH s)
  pB : ∀ s, Chk Eq (D.pB s) (D.pB s)
  pE : ∀ s, Chk Eq (D.pE s) (D.pE s)
  pK : ∀ s, Chk Eq (D.pK s) (D.pK s)

theorem ix8_ok {j : Int} {n : Nat} (h : j = n) (hn : n < 8) : ix8 j = .ret n := by
  subst h
  rw [ix8, if_pos (by omega)]
  rfl

variable {D : Prims} (Q : Quiet D)
include Q

theorem absorbTail_chk (s : State) (src : Ptr) (len : Nat) (hl : len < 8) :
    Chk Eq (absorbTail D s src len) (Opt.absorbTail D s src len) := by
  unfold absorbTail Opt.absorbTail
  refine chk_if (fun _ => ?_) fun _ => Q.pH _
  refine Chk.bind (R := Eq) (chk_forN' (R := Eq) ?_ rfl) ?_
  · rintro i x _ _ hi rfl
    refine (chk_load8 _).bindEq fun d => ?_
    exact .step (ix8_ok (n := 7 - i) (by omega) (by omega)) (.ret rfl)
  · rintro t _ rfl
    exact .step (ix8_ok (n := 7 - len) (by omega) (by omega)) (Q.pH _)

theorem absorbLanes_chk (s : State) (src : Ptr) (len : Nat) :
    Chk Eq (absorbLanes D s src len) (Opt.absorbLanes D s src len) := by
  unfold absorbLanes Opt.absorbLanes
  refine Chk.bind (R := Eq) (chk_whileGe (R := Eq) ?_ _ _ rfl) ?_
  · rintro i x _ rfl
    exact (chk_load64 _).bindEq fun _ => Q.pH _
  · rintro t _ rfl
    exact absorbTail_chk Q _ _ _ (Nat.mod_lt _ (by decide))

theorem rkStep_chk {x : CSrc} {y : Src} (h : SrcChk 16 x y) (i : Nat) (hi : i < 16) (s : State) :
    Chk Eq (rkStep D x i s) (Opt.rkStep D y i s) := by
  unfold rkStep Opt.rkStep
  refine (chk_get h hi).bind ?_
  rintro yb _ rfl
  refine (Q.pB _).bindEq fun s => (Q.pB _).bindEq fun s => (Q.pB _).bindEq fun s => (Q.pB _).bindEq fun s =>
    (Q.pB _).bindEq fun s => (Q.pB _).bindEq fun s => (Q.pB _).bindEq fun s => ?_
  exact chk_if (fun _ => Q.pB _) fun _ => .ret rfl

omit Q in
theorem iv_read (n : Nat) : areads (Arr.of (iv n)) 0 8 = .ret (iv n) := by
  rw [areads_of (by simp [iv])]
  rfl

/-- An array whose five words are those of `s`. -/
abbrev RW : Arr (BitVec 64) → State → Prop := fun a s => a = Arr.of (words s)

/-- For 16 bytes, `out` initialised. -/
theorem isapRk16_chk (k : Ptr) (n : Nat) {x : CSrc} {y : Src} (h : SrcChk 16 x y) (o : State) :
    Chk RW (isapRk D k (Arr.of (iv n)) x (Arr.of (words o)) 16) (Opt.isapRk D k (iv n) y o 16) := by
  unfold isapRk Opt.isapRk
  refine (chk_load64 _).bindEq fun k0 => (chk_load64 _).bindEq fun k1 => .step (iv_read n) ?_
  refine (Q.pK _).bindEq fun s => ?_
  refine Chk.bind (R := Eq) (chk_forN' (R := Eq) ?_ rfl) ?_
  · rintro i x _ _ hi rfl
    exact rkStep_chk Q h i (by omega) _
  · rintro s _ rfl
    refine (Q.pK _).bindEq fun s => ?_
    unfold rkOut Opt.rkOut
    refine .step (aset_of (by simp [words])) (.step (aset_of (by simp [words])) ?_)
    exact chk_if (fun h => absurd h (by decide)) fun _ => .ret rfl

/-- For 24 bytes, `out` not initialised. -/
theorem isapRk24_chk (k : Ptr) (n : Nat) {x : CSrc} {y : Src} (h : SrcChk 16 x y) (o : State) :
    Chk (fun a s => a = [some s.x0, some s.x1, some s.x2, none, none] ∧ s.x3 = o.x3 ∧ s.x4 = o.x4)
      (isapRk D k (Arr.of (iv n)) x (Arr.new 5) 24) (Opt.isapRk D k (iv n) y o 24) := by
  unfold isapRk Opt.isapRk
  refine (chk_load64 _).bindEq fun k0 => (chk_load64 _).bindEq fun k1 => .step (iv_read n) ?_
  refine (Q.pK _).bindEq fun s => ?_
  refine Chk.bind (R := Eq) (chk_forN' (R := Eq) ?_ rfl) ?_
  · rintro i x _ _ hi rfl
    exact rkStep_chk Q h i (by omega) _
  · rintro s _ rfl
    refine (Q.pK _).bindEq fun s => ?_
    unfold rkOut Opt.rkOut
    refine .step (aset_lt (by simp [Arr.new])) (.step (aset_lt (by simp [Arr.new])) ?_)
    refine chk_if (fun _ => ?_) fun h => absurd h (by decide)
    rw [aset_lt (by simp [Arr.new])]
    exact .ret ⟨rfl, rfl, rfl⟩

theorem macAbsorb_chk (npub ad : Ptr) (adlen : Nat) (c : Ptr) (clen : Nat) :
    Chk Eq (macAbsorb D npub ad adlen c clen) (Opt.macAbsorb D npub ad adlen c clen) := by
  unfold macAbsorb Opt.macAbsorb
  refine (chk_load64 _).bindEq fun n0 => (chk_load64 _).bindEq fun n1 => .step (iv_read 1) ?_
  refine (Q.pH _).bindEq fun s => ?_
  refine (absorbLanes_chk Q s ad adlen).bind ?_
  rintro s _ rfl
  exact absorbLanes_chk Q _ _ _

omit Q in
theorem readState_of (s : State) : readState (Arr.of (words s)) = .ret s := rfl

omit Q in
theorem y_src (a b : BitVec 64) : SrcChk 16 (.arr (Arr.of (toLe64 a ++ toLe64 b))) (.loc (toLe64 a ++ toLe64 b)) :=
  ⟨rfl, by simp [toLe64]⟩

theorem isapMac_chk (k npub ad : Ptr) (adlen : Nat) (c : Ptr) (clen : Nat) :
    Chk (fun a b => a = b ∧ b.length = 16) (isapMac D k npub ad adlen c clen) (Opt.isapMac D k npub ad adlen c clen) := by
  unfold isapMac Opt.isapMac
  refine (macAbsorb_chk Q npub ad adlen c clen).bind ?_
  rintro s _ rfl
  refine (isapRk16_chk Q k 2 (y_src _ _) _).bind ?_
  rintro a s rfl
  refine .step (readState_of s) ?_
  exact (Q.pH _).bindEq fun s => .ret ⟨rfl, by simp [toLe64]⟩

theorem isapEnc_chk (k npub m : Ptr) (mlen : Nat) (c : Ptr) :
    Chk Eq (isapEnc D k npub m mlen c) (Opt.isapEnc D k npub m mlen c) := by
  unfold isapEnc Opt.isapEnc
  refine (isapRk24_chk Q k 3 (x := .ext npub) (y := .ext npub) rfl ⟨0, 0, 0, 0, 0⟩).bind ?_
  rintro a s ⟨rfl, _, _⟩
  refine (chk_load64 _).bindEq fun n0 => .step (aset_lt (by simp)) ?_
  refine (chk_load64 _).bindEq fun n1 => .step (aset_lt (by simp)) ?_
  refine .step (x := ⟨s.x0, s.x1, s.x2, D.toWord n0, D.toWord n1⟩) rfl ?_
  refine Chk.bind (R := Eq) (chk_whileGe (R := Eq) ?_ _ _ rfl) ?_
  · rintro i x _ rfl
    exact (Q.pE _).bindEq fun s => (chk_load64 _).bindEq fun d => (chk_store64 _ _).bindEq fun _ => .ret rfl
  · rintro s _ rfl
    have hl : mlen % 8 < 8 := Nat.mod_lt _ (by decide)
    unfold encTail Opt.encTail
    refine chk_ifThen fun _ => (Q.pE _).bindEq fun s => chk_forN' (R := Eq) ?_ rfl
    rintro i x _ _ hi rfl
    refine (chk_load8 _).bindEq fun d => ?_
    exact .step (ix8_ok (n := i) rfl (by omega)) (chk_store8 _ _)

theorem implChk : ImplChk (impl D) (Opt.impl D) :=
  ⟨fun _ _ _ _ _ => isapEnc_chk Q _ _ _ _ _, fun _ _ _ _ _ _ => isapMac_chk Q _ _ _ _ _ _, rfl⟩

theorem cryptoHash_chk (out inp : Ptr) (inlen : Nat) :
    Chk Eq (cryptoHash D out inp inlen) (Opt.cryptoHash D out inp inlen) := by
  unfold cryptoHash Opt.cryptoHash
  refine .step (x := hashIV) rfl ?_
  refine (Q.pH _).bindEq fun s => ?_
  refine (absorbLanes_chk Q s inp inlen).bind ?_
  rintro s _ rfl
  refine Chk.bind (R := Eq) (chk_forN' (R := Eq) ?_ rfl) fun _ _ _ => .ret rfl
  rintro i s _ _ hi rfl
  unfold squeezeStep
  exact (chk_store64 _ _).bindEq fun _ => chk_if (fun _ => Q.pH _) fun _ => .ret rfl

end Opt.Chk

/-! ## The stp variants -/

namespace Opt.Stp.Chk
open Opt.Chk

variable {D : StpPrims} (Q : Quiet D.toPrims) (P : ∀ s, Chk Eq (D.pPVP s) (D.pPVP s))

include Q in
theorem isapMac_chk (k npub ad : Ptr) (adlen : Nat) (c : Ptr) (clen : Nat) :
    Chk (fun a b => a = b ∧ b.length = 16) (isapMac D k npub ad adlen c clen) (Stp.isapMac D k npub ad adlen c clen) := by
  unfold isapMac Stp.isapMac
  refine (macAbsorb_chk Q npub ad adlen c clen).bind ?_
  rintro s _ rfl
  refine (chk_setg _ _).bindEq fun _ => (chk_setg _ _).bindEq fun _ => ?_
  refine (isapRk16_chk Q k 2 (y_src _ _) _).bind ?_
  rintro a s rfl
  refine .step (readState_of s) ?_
  exact (Q.pH _).bindEq fun s => .ret ⟨rfl, by simp [toLe64]⟩

include Q in
theorem implChk : ImplChk (impl D) (Stp.impl D) :=
  ⟨fun _ _ _ _ _ => Opt.Chk.isapEnc_chk Q _ _ _ _ _, fun _ _ _ _ _ _ => isapMac_chk Q _ _ _ _ _ _, rfl⟩

include P in
theorem pvpHalf_chk (T : List Byte) (hT : T.length = 16) : Chk Eq (pvpHalf D (Arr.of T)) (Stp.pvpHalf D T) := by
  unfold pvpHalf Stp.pvpHalf
  refine .step (areads_of (by omega)) (.step (areads_of (by omega)) ?_)
  refine (chk_getg _).bindEq fun s0 => (chk_getg _).bindEq fun s1 => ?_
  obtain ⟨a, b, c, d, e, f, g, h, i, j, k, l, m, n, o, p, rfl⟩ : ∃ a b c d e f g h i j k l m n o p,
      T = [a, b, c, d, e, f, g, h, i, j, k, l, m, n, o, p] := by
    match T, hT with
    | [a, b, c, d, e, f, g, h, i, j, k, l, m, n, o, p], _ => exact ⟨a, b, c, d, e, f, g, h, i, j, k, l, m, n, o, p, rfl⟩
  exact P _

include P in
theorem pvp_chk (T U : List Byte) (hT : T.length = 16) (hU : U.length = 16) :
    Chk Eq (pvp D (Arr.of T) (Arr.of U)) (Stp.pvp D T U) := by
  unfold pvp Stp.pvp
  refine (pvpHalf_chk P T hT).bind ?_
  rintro u _ rfl
  refine (pvpHalf_chk P U hU).bind ?_
  rintro s _ rfl
  refine Chk.bind (R := Eq) (chk_forN' (R := Eq) ?_ rfl) ?_
  · rintro i x _ _ hi rfl
    exact .step (ix8_ok (n := i) rfl (by omega)) (.ret rfl)
  · rintro n _ rfl
    refine chk_forN' (R := Eq) ?_ rfl
    rintro i x _ _ hi rfl
    exact .step (ix8_ok (n := i) rfl (by omega)) (.ret rfl)

include Q P in
theorem decrypt_chk (m mlen nsec c : Ptr) (clen : Nat) (ad : Ptr) (adlen : Nat) (npub k : Ptr) :
    Chk Eq (decrypt D m mlen nsec c clen ad adlen npub k) (Stp.decrypt D m mlen nsec c clen ad adlen npub k) := by
  unfold decrypt Stp.decrypt
  refine (chk_storeLen _ _).bindEq fun _ => (chk_loadLen _).bindEq fun l => ?_
  refine (isapMac_chk Q _ _ _ _ _ _).bind ?_
  rintro t _ ⟨rfl, ht⟩
  refine .step (awrites_all (by simp [Arr.new, ht])) ?_
  refine Chk.bind (R := fun a b => a = Arr.of b ∧ b.length = 16) ?_ ?_
  · refine (chk_forN (n := 16) (i := 0) (x := Arr.new 16) (y := [])
      (I := fun i (a : Arr Byte) (b : List Byte) => a = Arr.of b ++ Arr.new (16 - i) ∧ b.length = i) ?_ ⟨rfl, rfl⟩).imp ?_
    · rintro i a b _ hi ⟨rfl, hb⟩
      refine (chk_loadLen _).bindEq fun l => (chk_load8 _).bindEq fun d => ?_
      rw [aset_lt (by simp [Arr.new]; omega)]
      refine .ret ⟨?_, by simp [hb]⟩
      have e : 16 - i = (16 - (i + 1)) + 1 := by omega
      rw [e]
      simp [Arr.of, Arr.new, hb, List.replicate_succ]
    · rintro a b ⟨rfl, hb⟩
      exact ⟨by simp [Arr.new], hb⟩
  · rintro _ u ⟨rfl, hu⟩
    refine (pvp_chk P t u ht hu).bind ?_
    rintro n _ rfl
    refine chk_if (fun _ => ?_) fun _ => .ret rfl
    refine (chk_loadLen _).bindEq fun l => ?_
    refine Chk.bind (R := Eq) (chk_ifThen fun _ => ?_) fun _ _ _ => .ret rfl
    exact (chk_loadLen _).bindEq fun l => Opt.Chk.isapEnc_chk Q _ _ _ _ _

include Q P in
theorem aeadChk : AeadChk (aead D) (Stp.aead D) :=
  ⟨fun a => encrypt_chk (implChk Q) _ _ _ _ _ _ a.nsec _ _, fun a => decrypt_chk Q P _ _ a.nsec _ _ _ _ _ _⟩

end Opt.Stp.Chk

/-! ## The permutations -/

namespace Opt.Chk

theorem unrolled_quiet {κ : Type} (round : State → κ → State) (c12 c6 c1 : List κ) (f g h : BitVec 64 → BitVec 64) :
    Quiet (unrolled round c12 c6 c1 f g h) :=
  ⟨fun _ => .ret rfl, fun _ => .ret rfl, fun _ => .ret rfl, fun _ => .ret rfl⟩

theorem viaProunds_quiet {pr : Nat → State → CM State} (h : ∀ n s, Chk Eq (pr n s) (pr n s)) (f g k : BitVec 64 → BitVec 64) :
    Quiet (viaProunds pr f g k) :=
  ⟨fun _ => h _ _, fun _ => h _ _, fun _ => h _ _, fun _ => h _ _⟩

theorem switch_quiet {κ : Type} (round : State → κ → State) (c12 c6 c1 : List κ) (n : Nat) (s : State) :
    Chk Eq (switchRounds round c12 c6 c1 n s) (switchRounds round c12 c6 c1 n s) :=
  chk_if (fun _ => .ret rfl) fun _ => chk_if (fun _ => .ret rfl) fun _ => .ret rfl

theorem switch7_quiet {κ : Type} (round : State → κ → State) (c12 c6 c1 : List κ) (n : Nat) (s : State) :
    Chk Eq (switchRounds7 round c12 c6 c1 n s) (switchRounds7 round c12 c6 c1 n s) :=
  chk_if (fun _ => .ret rfl) fun _ => chk_if (fun _ => .ret rfl) fun _ => chk_if (fun _ => .ret rfl) fun _ => .ret rfl

theorem tiny_quiet (round : State → Byte → State) (fuel : Nat) (i : Int) (s : State) :
    Chk Eq (tinyLoop round fuel i s) (tinyLoop round fuel i s) := by
  induction fuel generalizing i s with
  | zero => exact .ub fun h => nomatch h
  | succ n ih => exact chk_if (fun _ => ih _ _) fun _ => .ret rfl

end Opt.Chk
end Model
