import Verif.Proof.Sim
import Verif.Proof.Mem
import Verif.Model.Targets
import Verif.Proof.K128Perm
/-!
# The implementations have a data-independent shape
-/

namespace Model
open C

/-- Lists of the same length. -/
abbrev SameLen {α β : Type} : List α → List β → Prop := fun x y => x.length = y.length

/-- The functions of `isap.c` have a shape that depends on their pointer and length arguments only. -/
structure Shape (gl : Bool) (I : Impl) : Prop where
  enc : ∀ k npub m mlen c, Sim true gl Any (I.enc k npub m mlen c) (I.enc k npub m mlen c)
  mac : ∀ k npub ad adlen c clen, Sim false gl SameLen (I.mac k npub ad adlen c clen) (I.mac k npub ad adlen c clen)

variable {st gl : Bool}

/-! ## Reference -/

namespace Ref

/-- The permutation has a fixed shape. -/
def PermShape (G : Cfg) : Prop :=
  ∀ (x y : List Byte) (n : Nat), Sim false false SameLen (G.permute x n) (G.permute y n)

variable {G : Cfg}

theorem sim_permute (P : PermShape G) (x y : List Byte) (n : Nat) : Sim st gl SameLen (G.permute x n) (G.permute y n) :=
  (P x y n).weaken (fun h => nomatch h) (fun h => nomatch h)

theorem sim_addBytes {x y : List Byte} {d d' : Src} (h : SameLen x y) (hd : SrcSim d d') (offset length : Nat) :
    Sim st gl SameLen (addBytes G x d offset length) (addBytes G y d' offset length) := by
  unfold addBytes
  refine (sim_assert _).bind fun _ _ _ => (sim_assert _).bind fun _ _ _ => sim_forN ?_ _ _ h
  intro i x y hxy
  refine (sim_get hd i).bind fun _ _ _ => .pure ?_
  simpa [SameLen] using hxy

theorem sim_overwriteBytes {x y : List Byte} {d d' : Src} (h : SameLen x y) (hd : SrcSim d d') (offset length : Nat) :
    Sim st gl SameLen (overwriteBytes G x d offset length) (overwriteBytes G y d' offset length) := by
  unfold overwriteBytes
  refine (sim_assert _).bind fun _ _ _ => (sim_assert _).bind fun _ _ _ => sim_forN ?_ _ _ h
  intro i x y hxy
  refine (sim_get hd i).bind fun _ _ _ => .pure ?_
  simpa [SameLen] using hxy

theorem sim_extractBytes {x y : List Byte} (h : SameLen x y) (offset length : Nat) :
    Sim st gl SameLen (extractBytes G x offset length) (extractBytes G y offset length) := by
  unfold extractBytes
  refine (sim_assert _).bind fun _ _ _ => (sim_assert _).bind fun _ _ _ => .pure ?_
  simp only [SameLen, List.length_take, List.length_drop] at h ⊢
  rw [h]

theorem sim_isapRk (P : PermShape G) (k : Ptr) (iv : List Byte) {x y : Src} (h : SrcSim x y) (inlen outlen : Nat) :
    Sim st gl SameLen (isapRk G k iv x inlen outlen) (isapRk G k iv y inlen outlen) := by
  unfold isapRk
  refine (sim_addBytes rfl (by exact rfl) _ _).bind fun _ _ h1 => ?_
  refine (sim_addBytes h1 (by exact rfl) _ _).bind fun _ _ h1 => ?_
  refine (sim_permute P _ _ _).bind fun _ _ h1 => ?_
  refine (sim_forN ?_ _ _ h1).bind fun _ _ h1 => ?_
  · intro i x y hxy
    refine (sim_get h _).bind fun _ _ _ => ?_
    refine (sim_addBytes hxy (by exact rfl) _ _).bind fun _ _ _ => ?_
    exact sim_permute P _ _ _
  refine (sim_get h _).bind fun _ _ _ => ?_
  refine (sim_addBytes h1 (by exact rfl) _ _).bind fun _ _ h1 => ?_
  refine (sim_permute P _ _ _).bind fun _ _ h1 => ?_
  exact sim_extractBytes h1 _ _

/-- Relation for the pair `(state, rate_bytes_avail)`. -/
abbrev SameAvail : List Byte × Nat → List Byte × Nat → Prop := fun x y => x.1.length = y.1.length ∧ x.2 = y.2

theorem sim_refill (P : PermShape G) (rounds : Nat) {x y : List Byte} (h : SameLen x y) (n : Nat) :
    Sim st gl SameAvail (refill G rounds x n) (refill G rounds y n) := by
  unfold refill
  refine sim_if (fun _ => ?_) fun _ => .pure ⟨h, rfl⟩
  exact (sim_permute P _ _ _).bind fun _ _ h => .pure ⟨h, rfl⟩

theorem sim_absorbAd (P : PermShape G) {x y : List Byte} (h : SameLen x y) (ad : Ptr) (adlen : Nat) :
    Sim st gl SameAvail (absorbAd G x ad adlen) (absorbAd G y ad adlen) := by
  unfold absorbAd
  refine sim_forN ?_ _ _ ⟨h, rfl⟩
  rintro i ⟨x, n⟩ ⟨y, n'⟩ ⟨hx, hn⟩
  cases hn
  refine (sim_refill P _ hx _).bind ?_
  rintro ⟨x, n⟩ ⟨y, n'⟩ ⟨hx, hn⟩
  cases hn
  refine (sim_load8 _).bind fun _ _ _ => ?_
  exact (sim_addBytes hx (by exact rfl) _ _).bind fun _ _ h => .pure ⟨h, rfl⟩

theorem sim_absorbC (P : PermShape G) {x y : List Byte} (h : SameLen x y) (c : Ptr) (clen : Nat) :
    Sim st gl SameAvail (absorbC G x c clen) (absorbC G y c clen) := by
  unfold absorbC
  refine sim_forN ?_ _ _ ⟨h, rfl⟩
  rintro i ⟨x, n⟩ ⟨y, n'⟩ ⟨hx, hn⟩
  cases hn
  refine (sim_load8 _).bind fun _ _ _ => ?_
  exact (sim_addBytes hx (by exact rfl) _ _).bind fun _ _ h => sim_refill P _ h _

theorem sim_isapMac (P : PermShape G) (k npub ad : Ptr) (adlen : Nat) (c : Ptr) (clen : Nat) :
    Sim st gl SameLen (isapMac G k npub ad adlen c clen) (isapMac G k npub ad adlen c clen) := by
  unfold isapMac
  refine (sim_addBytes rfl (by exact rfl) _ _).bind fun _ _ h1 => ?_
  refine (sim_addBytes h1 (by exact rfl) _ _).bind fun _ _ h1 => ?_
  refine (sim_permute P _ _ _).bind fun _ _ h1 => ?_
  refine (sim_absorbAd P h1 _ _).bind ?_
  rintro ⟨x, n⟩ ⟨y, n'⟩ ⟨hx, hn⟩
  cases hn
  refine (sim_refill P _ hx _).bind ?_
  rintro ⟨x, n⟩ ⟨y, n'⟩ ⟨hx, hn⟩
  cases hn
  refine (sim_addBytes hx (by exact rfl) _ _).bind fun _ _ h1 => ?_
  refine (sim_permute P _ _ _).bind fun _ _ h1 => ?_
  refine (sim_addBytes h1 (by exact rfl) _ _).bind fun _ _ h1 => ?_
  refine (sim_absorbC P h1 _ _).bind ?_
  rintro ⟨x, n⟩ ⟨y, n'⟩ ⟨hx, hn⟩
  cases hn
  refine (sim_addBytes hx (by exact rfl) _ _).bind fun _ _ h1 => ?_
  refine (sim_permute P _ _ _).bind fun _ _ h1 => ?_
  refine (sim_extractBytes h1 _ _).bind fun _ _ h2 => ?_
  refine (sim_isapRk P k _ (x := .loc _) (y := .loc _) h2 _ _).bind fun _ _ h2 => ?_
  refine (sim_overwriteBytes h1 (d := .loc _) (d' := .loc _) h2 _ _).bind fun _ _ h1 => ?_
  refine (sim_permute P _ _ _).bind fun _ _ h1 => ?_
  exact sim_extractBytes h1 _ _

theorem sim_isapEnc (P : PermShape G) (k npub m : Ptr) (mlen : Nat) (c : Ptr) :
    Sim true gl Any (isapEnc G k npub m mlen c) (isapEnc G k npub m mlen c) := by
  unfold isapEnc
  refine (sim_isapRk P k _ (x := .ext _) (y := .ext _) rfl _ _).bind fun x y h1 => ?_
  refine (sim_overwriteBytes (x := x ++ _) (y := y ++ _) ?_ (d := .ext _) (d' := .ext _) rfl _ _).bind fun x y h1 => ?_
  · simp only [SameLen, List.length_append, h1]
  refine (sim_forN (R := SameAvail) ?_ _ _ (x := (x, 0)) (y := (y, 0)) ⟨h1, rfl⟩).bind (S := Any) fun _ _ _ => .ret trivial
  rintro i ⟨x, n⟩ ⟨y, n'⟩ ⟨hx, hn⟩
  cases hn
  refine (sim_refill P _ hx _).bind ?_
  rintro ⟨x, n⟩ ⟨y, n'⟩ ⟨hx, hn⟩
  cases hn
  refine (sim_extractBytes hx _ _).bind fun _ _ _ => ?_
  refine (sim_load8 _).bind fun _ _ _ => ?_
  exact (sim_store8 _ _ _).bind fun _ _ _ => .pure ⟨hx, rfl⟩

theorem shape (P : PermShape G) : Shape gl (impl G) :=
  ⟨fun _ _ _ _ _ => sim_isapEnc P _ _ _ _ _, fun _ _ _ _ _ _ => sim_isapMac P _ _ _ _ _ _⟩

end Ref

theorem AsconRef.permShape (x y : List Byte) (n : Nat) : Sim st gl SameLen (AsconRef.permute x n) (AsconRef.permute y n) := by
  unfold AsconRef.permute
  refine (sim_assert _).bind fun _ _ _ => .pure ?_
  simp [SameLen, AsconRef.store64]

theorem KeccakRef.permShape (x y : List Byte) (n : Nat) : Sim st gl SameLen (KeccakRef.permute x n) (KeccakRef.permute y n) := by
  refine .ret ?_
  have : ∀ A : KeccakRef.Lanes, (KeccakRef.unwords A).length = 50 := by
    intro A
    rw [KeccakRef.unwords, List.length_flatMap]
    show (A.toList.map fun _ => 2).sum = 50
    rw [List.map_const', Vector.length_toList]
    rfl
  rw [SameLen, this, this]

theorem ParamSet.permShape (p : ParamSet) : Ref.PermShape p.cfg := by
  cases p
  · exact AsconRef.permShape
  · exact AsconRef.permShape
  · exact KeccakRef.permShape
  · exact KeccakRef.permShape

/-! ## Optimized ISAP-A-128a -/

namespace Opt

/-- The permutations have a fixed shape. -/
structure PrimsShape (D : Prims) : Prop where
  pH : ∀ x y, Sim false false Any (D.pH x) (D.pH y)
  pB : ∀ x y, Sim false false Any (D.pB x) (D.pB y)
  pE : ∀ x y, Sim false false Any (D.pE x) (D.pE y)
  pK : ∀ x y, Sim false false Any (D.pK x) (D.pK y)

theorem _root_.C.Sim.free {α β : Type} {R : α → β → Prop} {f : CM α} {g : CM β} (H : Sim false false R f g) : Sim st gl R f g :=
  H.weaken (fun h => nomatch h) (fun h => nomatch h)

variable {D : Prims}

theorem sim_absorbTail (P : PrimsShape D) (x y : State) (src : Ptr) (len : Nat) :
    Sim st gl Any (absorbTail D x src len) (absorbTail D y src len) := by
  unfold absorbTail
  refine sim_if (fun _ => ?_) fun _ => (P.pH _ _).free
  refine (sim_forN (R := Any) ?_ _ _ trivial).bind fun _ _ _ => (P.pH _ _).free
  exact fun i x y _ => (sim_load8 _).bind fun _ _ _ => .pure trivial

theorem sim_absorbLanes (P : PrimsShape D) (x y : State) (src : Ptr) (len : Nat) :
    Sim st gl Any (absorbLanes D x src len) (absorbLanes D y src len) := by
  unfold absorbLanes
  refine (sim_whileGe (R := Any) ?_ _ _ trivial).bind fun _ _ _ => sim_absorbTail P _ _ _ _
  exact fun i x y _ => (sim_load64 _).bind fun _ _ _ => (P.pH _ _).free

theorem sim_isapRk (P : PrimsShape D) (k : Ptr) (iv : List Byte) {x y : Src} (h : SrcSim x y) (o o' : State) (outlen : Nat) :
    Sim st gl Any (isapRk D k iv x o outlen) (isapRk D k iv y o' outlen) := by
  unfold isapRk
  refine (sim_load64 _).bind fun _ _ _ => (sim_load64 _).bind fun _ _ _ => ?_
  refine (P.pK _ _).free.bind fun _ _ _ => ?_
  refine (sim_forN (R := Any) ?_ _ _ trivial).bind fun _ _ _ => ?_
  · intro i a b _
    unfold rkStep
    refine (sim_get h _).bind fun _ _ _ => ?_
    iterate 7 refine (P.pB _ _).free.bind fun _ _ _ => ?_
    exact sim_if (fun _ => (P.pB _ _).free) fun _ => .pure trivial
  refine (P.pK _ _).free.bind fun _ _ _ => ?_
  unfold rkOut
  exact sim_if (fun _ => .pure trivial) fun _ => .pure trivial

theorem sim_macAbsorb (P : PrimsShape D) (npub ad : Ptr) (adlen : Nat) (c : Ptr) (clen : Nat) :
    Sim st gl Any (macAbsorb D npub ad adlen c clen) (macAbsorb D npub ad adlen c clen) := by
  unfold macAbsorb
  refine (sim_load64 _).bind fun _ _ _ => (sim_load64 _).bind fun _ _ _ => ?_
  refine (P.pH _ _).free.bind fun _ _ _ => ?_
  refine (sim_absorbLanes P _ _ _ _).bind fun _ _ _ => ?_
  exact sim_absorbLanes P _ _ _ _

theorem sameLen_tag (a b c d : BitVec 64) : SameLen (toLe64 a ++ toLe64 b) (toLe64 c ++ toLe64 d) := by
  simp [SameLen, toLe64]

theorem sim_isapMac (P : PrimsShape D) (k npub ad : Ptr) (adlen : Nat) (c : Ptr) (clen : Nat) :
    Sim st gl SameLen (isapMac D k npub ad adlen c clen) (isapMac D k npub ad adlen c clen) := by
  unfold isapMac
  refine (sim_macAbsorb P _ _ _ _ _).bind fun _ _ _ => ?_
  refine (sim_isapRk P k _ (x := .loc _) (y := .loc _) (sameLen_tag _ _ _ _) _ _ _).bind fun _ _ _ => ?_
  exact (P.pH _ _).free.bind fun _ _ _ => .pure (sameLen_tag _ _ _ _)

theorem sim_isapEnc (P : PrimsShape D) (k npub m : Ptr) (mlen : Nat) (c : Ptr) :
    Sim true gl Any (isapEnc D k npub m mlen c) (isapEnc D k npub m mlen c) := by
  unfold isapEnc
  refine (sim_isapRk P k _ (x := .ext _) (y := .ext _) rfl _ _ _).bind fun _ _ _ => ?_
  refine (sim_load64 _).bind fun _ _ _ => (sim_load64 _).bind fun _ _ _ => ?_
  refine (sim_whileGe (R := Any) ?_ _ _ trivial).bind fun _ _ _ => ?_
  · intro i x y _
    refine (P.pE _ _).free.bind fun _ _ _ => ?_
    refine (sim_load64 _).bind fun _ _ _ => ?_
    exact (sim_store64 _ _ _).bind fun _ _ _ => .pure trivial
  unfold encTail
  refine sim_ifThen fun _ => ?_
  refine (P.pE _ _).free.bind fun _ _ _ => ?_
  refine sim_forN (R := Any) ?_ _ _ trivial
  exact fun i _ _ _ => (sim_load8 _).bind fun _ _ _ => sim_store8 _ _ _

theorem shape (P : PrimsShape D) : Shape gl (impl D) :=
  ⟨fun _ _ _ _ _ => sim_isapEnc P _ _ _ _ _, fun _ _ _ _ _ _ => sim_isapMac P _ _ _ _ _ _⟩

theorem unrolled_shape {κ : Type} (round : State → κ → State) (c12 c6 c1 : List κ) (f g h : BitVec 64 → BitVec 64) :
    PrimsShape (unrolled round c12 c6 c1 f g h) :=
  ⟨fun _ _ => .ret trivial, fun _ _ => .ret trivial, fun _ _ => .ret trivial, fun _ _ => .ret trivial⟩

theorem sim_switch {κ : Type} (round : State → κ → State) (c12 c6 c1 : List κ) (n : Nat) (x y : State) :
    Sim st gl Any (switchRounds round c12 c6 c1 n x) (switchRounds round c12 c6 c1 n y) :=
  sim_if (fun _ => .pure trivial) fun _ => sim_if (fun _ => .pure trivial) fun _ => .pure trivial

theorem sim_switch7 {κ : Type} (round : State → κ → State) (c12 c6 c1 : List κ) (n : Nat) (x y : State) :
    Sim st gl Any (switchRounds7 round c12 c6 c1 n x) (switchRounds7 round c12 c6 c1 n y) :=
  sim_if (fun _ => .pure trivial) fun _ => sim_if (fun _ => .pure trivial) fun _ =>
    sim_if (fun _ => .pure trivial) fun _ => .pure trivial

theorem sim_tinyLoop (round : State → Byte → State) (fuel : Nat) (i : Int) (x y : State) :
    Sim st gl Any (tinyLoop round fuel i x) (tinyLoop round fuel i y) := by
  induction fuel generalizing i x y with
  | zero => exact .ub
  | succ n ih => exact sim_if (fun _ => ih _ _ _) fun _ => .pure trivial

theorem viaProunds_shape {pr : Nat → State → CM State} (h : ∀ n x y, Sim false false Any (pr n x) (pr n y))
    (f g k : BitVec 64 → BitVec 64) : PrimsShape (viaProunds pr f g k) :=
  ⟨h _, h _, h _, h _⟩

/-! ## stp -/

namespace Stp

variable {D : StpPrims}

theorem sim_isapMac (P : PrimsShape D.toPrims) (k npub ad : Ptr) (adlen : Nat) (c : Ptr) (clen : Nat) :
    Sim st true SameLen (isapMac D k npub ad adlen c clen) (isapMac D k npub ad adlen c clen) := by
  unfold isapMac
  refine (sim_macAbsorb P _ _ _ _ _).bind fun _ _ _ => ?_
  refine (sim_setg _ _ _).bind fun _ _ _ => (sim_setg _ _ _).bind fun _ _ _ => ?_
  refine (sim_isapRk P k _ (x := .loc _) (y := .loc _) (sameLen_tag _ _ _ _) _ _ _).bind fun _ _ _ => ?_
  exact (P.pH _ _).free.bind fun _ _ _ => .pure (sameLen_tag _ _ _ _)

theorem sim_pvp (h : ∀ x y, Sim false false Any (D.pPVP x) (D.pPVP y)) (T T' U U' : List Byte) :
    Sim st true Any (pvp D T U) (pvp D T' U') := by
  have half : ∀ A B : List Byte, Sim st true Any (pvpHalf D A) (pvpHalf D B) := fun A B =>
    (sim_getg _).bind fun _ _ _ => (sim_getg _).bind fun _ _ _ => (h _ _).free
  unfold pvp
  refine (half _ _).bind fun _ _ _ => (half _ _).bind fun _ _ _ => ?_
  refine (sim_forN (R := Any) (fun i x y _ => .pure trivial) _ _ trivial).bind fun _ _ _ => ?_
  exact sim_forN (R := Any) (fun i x y _ => .pure trivial) _ _ trivial

theorem shape (P : PrimsShape D.toPrims) : Shape true (impl D) :=
  ⟨fun _ _ _ _ _ => Opt.sim_isapEnc P _ _ _ _ _, fun _ _ _ _ _ _ => sim_isapMac P _ _ _ _ _ _⟩

end Stp
end Opt

/-! ## Optimized ISAP-A-128 -/

namespace A128

namespace Opt64

theorem sim_absorbLanes (pH : Opt.State → Opt.State) (d : DataModel) (x y : Opt.State) (src : Ptr) (len : Nat) :
    Sim st gl Any (absorbLanes pH d x src len) (absorbLanes pH d y src len) := by
  unfold absorbLanes
  refine sim_whileRem (R := Any) ?_ ?_ ?_ _ _ trivial
  · exact fun i x y _ => (sim_load64 _).bind fun _ _ _ => .pure trivial
  · exact fun i x y _ => (sim_load64 _).bind fun _ _ _ => .pure trivial
  · intro i n x y _
    refine (sim_forN (R := Any) ?_ _ _ trivial).bind fun _ _ _ => .pure trivial
    intro i x y _
    unfold padByte
    refine sim_if (fun _ => (sim_load8 _).bind fun _ _ _ => .pure trivial) fun _ => ?_
    exact sim_if (fun _ => .pure trivial) fun _ => .pure trivial

theorem sim_absorbMac (pH : Opt.State → Opt.State) (d : DataModel) (x y : Opt.State) (src : Ptr) (len : Nat) :
    Sim st gl Any (absorbMac pH d x src len) (absorbMac pH d y src len) :=
  (sim_absorbLanes _ _ _ _ _ _).bind fun _ _ _ => .pure trivial

theorem sim_isapRk (D : Cfg) (k : Ptr) (iv : List Byte) {x y : Src} (h : SrcSim x y) (o o' : Opt.State) (outlen : Nat) :
    Sim st gl Any (isapRk D k iv x o outlen) (isapRk D k iv y o' outlen) := by
  unfold isapRk
  refine (sim_load64 _).bind fun _ _ _ => (sim_load64 _).bind fun _ _ _ => ?_
  refine (sim_forN (R := Any) ?_ _ _ trivial).bind fun _ _ _ => ?_
  · exact fun i a b _ => (sim_get h _).bind fun _ _ _ => .pure trivial
  refine (sim_get h _).bind fun _ _ _ => ?_
  exact sim_if (fun _ => .pure trivial) fun _ => .pure trivial

theorem sim_isapMac (D : Cfg) (k npub ad : Ptr) (adlen : Nat) (c : Ptr) (clen : Nat) :
    Sim st gl SameLen (isapMac D k npub ad adlen c clen) (isapMac D k npub ad adlen c clen) := by
  unfold isapMac macAbsorb
  refine Sim.bind (R := Any) ?_ fun _ _ _ => ?_
  · refine (sim_load64 _).bind fun _ _ _ => (sim_load64 _).bind fun _ _ _ => ?_
    exact (sim_absorbMac _ _ _ _ _ _).bind fun _ _ _ => sim_absorbMac _ _ _ _ _ _
  · refine (sim_isapRk D k _ (x := .loc _) (y := .loc _) (Opt.sameLen_tag _ _ _ _) _ _ _).bind fun _ _ _ => ?_
    exact .pure (Opt.sameLen_tag _ _ _ _)

theorem sim_isapEnc (D : Cfg) (k npub m : Ptr) (mlen : Nat) (c : Ptr) :
    Sim true gl Any (isapEnc D k npub m mlen c) (isapEnc D k npub m mlen c) := by
  unfold isapEnc
  refine (sim_isapRk D k _ (x := .ext _) (y := .ext _) rfl _ _ _).bind fun _ _ _ => ?_
  refine (sim_load64 _).bind fun _ _ _ => (sim_load64 _).bind fun _ _ _ => ?_
  refine (sim_whileRem (R := Any) ?_ ?_ ?_ _ _ trivial).bind fun _ _ _ => .pure trivial
  · intro i x y _
    refine (sim_load64 _).bind fun _ _ _ => ?_
    exact (sim_store64 _ _ _).bind fun _ _ _ => .pure trivial
  · intro i x y _
    refine (sim_load64 _).bind fun _ _ _ => ?_
    exact (sim_store64 _ _ _).bind fun _ _ _ => .pure trivial
  · intro i n x y _
    refine (sim_forN (R := Any) ?_ _ _ trivial).bind fun _ _ _ => .pure trivial
    exact fun i _ _ _ => (sim_load8 _).bind fun _ _ _ => sim_store8 _ _ _

theorem shape (D : Cfg) : Shape gl (impl D) :=
  ⟨fun _ _ _ _ _ => sim_isapEnc D _ _ _ _ _, fun _ _ _ _ _ _ => sim_isapMac D _ _ _ _ _ _⟩

end Opt64

namespace Opt32

/-- The permutations have a fixed shape. -/
structure PrimsShape (D : Prims) : Prop where
  pL : ∀ x y, Sim false false Any (D.pL x) (D.pL y)
  pU : ∀ x y, Sim false false Any (D.pU x) (D.pU y)

variable {D : Prims}

theorem sim_absorb (P : PrimsShape D) (x y : Opt.State) (src : Ptr) (len : Nat) :
    Sim st gl Any (absorb D x src len) (absorb D y src len) := by
  unfold absorb
  refine (sim_whileGe (R := Any) ?_ _ _ trivial).bind fun _ _ _ => ?_
  · exact fun i x y _ => (sim_load64 _).bind fun _ _ _ => (P.pU _ _).free
  refine Sim.bind (R := Any) ?_ fun _ _ _ => ?_
  · unfold absorbPart
    refine sim_if (fun _ => ?_) fun _ => .pure trivial
    refine (sim_forN (R := Any) ?_ _ _ trivial).bind fun _ _ _ => (P.pL _ _).free
    exact fun i x y _ => (sim_load8 _).bind fun _ _ _ => .pure trivial
  · unfold absorbPad
    exact sim_if (fun _ => (P.pL _ _).free) fun _ => .pure trivial

theorem sim_isapRk (P : PrimsShape D) (k : Ptr) (iv : List Byte) {x y : Src} (h : SrcSim x y) (outlen : Nat) :
    Sim st gl Any (isapRk D k iv x outlen) (isapRk D k iv y outlen) := by
  unfold isapRk
  refine (sim_load64 _).bind fun _ _ _ => (sim_load64 _).bind fun _ _ _ => ?_
  refine (P.pL _ _).free.bind fun _ _ _ => ?_
  refine (sim_forN (R := Any) ?_ _ _ trivial).bind fun _ _ _ => ?_
  · exact fun i a b _ => (sim_get h _).bind fun _ _ _ => (P.pU _ _).free
  refine (sim_get h _).bind fun _ _ _ => (P.pL _ _).free.bind fun _ _ _ => ?_
  exact sim_if (fun _ => .pure trivial) fun _ => .pure trivial

theorem sim_isapMac (P : PrimsShape D) (k npub ad : Ptr) (adlen : Nat) (c : Ptr) (clen : Nat) :
    Sim st gl SameLen (isapMac D k npub ad adlen c clen) (isapMac D k npub ad adlen c clen) := by
  unfold isapMac macAbsorb
  refine Sim.bind (R := Any) ?_ fun _ _ _ => ?_
  · refine (sim_load64 _).bind fun _ _ _ => (sim_load64 _).bind fun _ _ _ => (P.pL _ _).free.bind fun _ _ _ => ?_
    exact (sim_absorb P _ _ _ _).bind fun _ _ _ => sim_absorb P _ _ _ _
  · refine (sim_isapRk P k _ (x := .loc _) (y := .loc _) (Opt.sameLen_tag _ _ _ _) _).bind fun _ _ _ => ?_
    exact (P.pL _ _).free.bind fun _ _ _ => .pure (Opt.sameLen_tag _ _ _ _)

theorem sim_isapEnc (P : PrimsShape D) (k npub m : Ptr) (mlen : Nat) (c : Ptr) :
    Sim true gl Any (isapEnc D k npub m mlen c) (isapEnc D k npub m mlen c) := by
  unfold isapEnc
  refine (sim_isapRk P k _ (x := .ext _) (y := .ext _) rfl _).bind fun _ _ _ => ?_
  refine (sim_load64 _).bind fun _ _ _ => (sim_load64 _).bind fun _ _ _ => ?_
  refine (sim_whileGe (R := Any) ?_ _ _ trivial).bind fun _ _ _ => ?_
  · intro i x y _
    refine (P.pU _ _).free.bind fun _ _ _ => ?_
    refine (sim_load64 _).bind fun _ _ _ => ?_
    exact (sim_store64 _ _ _).bind fun _ _ _ => .pure trivial
  unfold encTail
  refine sim_ifThen fun _ => ?_
  refine (P.pL _ _).free.bind fun _ _ _ => ?_
  refine sim_forN (R := Any) ?_ _ _ trivial
  exact fun i _ _ _ => (sim_load8 _).bind fun _ _ _ => sim_store8 _ _ _

theorem shape (P : PrimsShape D) : Shape gl (impl D) :=
  ⟨fun _ _ _ _ _ => sim_isapEnc P _ _ _ _ _, fun _ _ _ _ _ _ => sim_isapMac P _ _ _ _ _ _⟩

theorem sim_px (round : Opt.State → BitVec 32 → BitVec 32 → Opt.State) (n : Nat) (x y : Opt.State) :
    Sim st gl Any (px round n x) (px round n y) := by
  unfold px
  exact sim_forN (R := Any) (fun i x y _ => .pure trivial) _ _ trivial

theorem primsShape : PrimsShape prims := ⟨sim_px _ _, sim_px _ _⟩
theorem primsArmShape : PrimsShape primsArm := ⟨sim_px _ _, fun _ _ => .pure trivial⟩

end Opt32

end A128

namespace K128

/-- The permutations return arrays of a fixed length, and blocks are read by a fixed sequence of loads. -/
structure PrimsShape (D : Prims) : Prop where
  pH : ∀ S T, SameLen (D.pH S) (D.pH T)
  pB : ∀ S T, SameLen (D.pB S) (D.pB T)
  pE : ∀ S T, SameLen (D.pE S) (D.pE T)
  pK : ∀ S T, SameLen (D.pK S) (D.pK T)
  ldBlk : ∀ p, Sim false false Any (D.ldBlk p) (D.ldBlk p)
  ldMsg : ∀ p, Sim false false SameLen (D.ldMsg p) (D.ldMsg p)

theorem sim_loads (al w n : Nat) (p : Ptr) : Sim st gl SameLen (loads al w n p) (loads al w n p) := by
  induction n generalizing p with
  | zero => exact .pure rfl
  | succ n ih =>
    refine (sim_load al w p).bind fun a b h => (ih _).bind fun c d h' => .pure ?_
    have h' : c.length = d.length := h'
    simp only [SameLen, List.length_append, h.1, h.2, h']

theorem sim_padByte (src : Ptr) (rem i : Nat) (S T : List Byte) : Sim st gl Any (padByte src rem i S) (padByte src rem i T) := by
  unfold padByte
  refine sim_if (fun _ => (sim_load8 _).bind fun _ _ _ => .pure trivial) fun _ => ?_
  exact sim_if (fun _ => .pure trivial) fun _ => .pure trivial

variable {D : Prims} (P : PrimsShape D)
include P

theorem sim_absorbMac {x y : List Byte} (h : SameLen x y) (src : Ptr) (len : Nat) :
    Sim st gl SameLen (absorbMac D x src len) (absorbMac D y src len) := by
  unfold absorbMac
  refine sim_whileRem (R := SameLen) ?_ ?_ ?_ _ _ h
  · exact fun i x y _ => ((P.ldBlk _).weaken (fun h => nomatch h) (fun h => nomatch h)).bind fun _ _ _ => .pure (P.pH _ _)
  · exact fun i x y _ => ((P.ldBlk _).weaken (fun h => nomatch h) (fun h => nomatch h)).bind fun _ _ _ => .pure (P.pH _ _)
  · intro i n x y _
    refine (sim_forN (R := Any) ?_ _ _ trivial).bind fun _ _ _ => .pure (P.pH _ _)
    exact fun i x y _ => sim_padByte _ _ _ _ _

theorem sim_isapRk (k : Ptr) (n : Nat) {x y : Src} (h : SrcSim x y) (outlen : Nat) :
    Sim st gl SameLen (isapRk D k n x outlen) (isapRk D k n y outlen) := by
  unfold isapRk
  refine (sim_loads _ _ _ _).bind fun _ _ _ => ?_
  refine (sim_forN (R := Any) ?_ _ _ trivial).bind fun _ _ _ => ?_
  · exact fun i a b _ => (sim_get h _).bind fun _ _ _ => .pure trivial
  refine (sim_get h _).bind fun _ _ _ => ?_
  refine sim_if (fun _ => .pure ?_) fun _ => .pure ?_
  · simp only [SameLen, List.length_take, P.pK _ []]
  · simp only [SameLen, List.length_take, P.pK _ []]

theorem sim_isapMac (k npub ad : Ptr) (adlen : Nat) (c : Ptr) (clen : Nat) :
    Sim st gl SameLen (isapMac D k npub ad adlen c clen) (isapMac D k npub ad adlen c clen) := by
  unfold isapMac
  refine (sim_loads _ _ _ _).bind fun _ _ _ => ?_
  refine (sim_absorbMac P (P.pH _ _) _ _).bind fun S T h => ?_
  refine (sim_absorbMac P (x := xorMem S 49 [0x01]) (y := xorMem T 49 [0x01]) ?_ _ _).bind fun S T h => ?_
  · have h : S.length = T.length := h
    simp [SameLen, xorMem, h]
  have h : S.length = T.length := h
  refine (sim_isapRk P k _ (x := .loc _) (y := .loc _) ?_ _).bind fun _ _ _ => .pure ?_
  · show (S.take 16).length = (T.take 16).length
    simp only [List.length_take, h]
  · simp only [SameLen, List.length_take, P.pH _ []]

theorem sim_encBlock (m c : Ptr) {x y : List Byte} (h : SameLen x y) : Sim true gl Any (encBlock D m c x) (encBlock D m c y) := by
  unfold encBlock
  refine ((P.ldMsg _).weaken (fun h => nomatch h) (fun h => nomatch h)).bind fun a b h' => sim_store ?_
  have h : x.length = y.length := h
  have h' : a.length = b.length := h'
  simp only [List.length_zipWith, List.length_take, h, h']

theorem sim_isapEnc (k npub m : Ptr) (mlen : Nat) (c : Ptr) :
    Sim true gl Any (isapEnc D k npub m mlen c) (isapEnc D k npub m mlen c) := by
  unfold isapEnc
  refine (sim_isapRk P k _ (x := .ext _) (y := .ext _) rfl _).bind fun _ _ _ => ?_
  refine (sim_loads _ _ _ _).bind fun _ _ _ => ?_
  refine (sim_whileRem (R := SameLen) ?_ ?_ ?_ _ _ (P.pE _ _)).bind fun _ _ _ => .pure trivial
  · exact fun i x y h => (sim_encBlock P _ _ h).bind fun _ _ _ => .pure (P.pE _ _)
  · exact fun i x y h => (sim_encBlock P _ _ h).bind fun _ _ _ => .pure h
  · intro i n x y h
    refine (sim_forN (R := Any) ?_ _ _ trivial).bind fun _ _ _ => .pure h
    exact fun i _ _ _ => (sim_load8 _).bind fun _ _ _ => sim_store8 _ _ _

theorem shape : Shape gl (impl D) :=
  ⟨fun _ _ _ _ _ => sim_isapEnc P _ _ _ _ _, fun _ _ _ _ _ _ => sim_isapMac P _ _ _ _ _ _⟩

omit P

namespace Opt64

theorem sameLen_unwords (A B : KeccakRef.Lanes) : SameLen (KeccakRef.unwords A) (KeccakRef.unwords B) := by
  simp [SameLen, KeccakRef.unwords, List.length_flatMap, List.map_const']

theorem sim_ldBlk (p : Ptr) : Sim st gl Any (ldBlk p) (ldBlk p) :=
  (sim_load _ _ _).bind fun _ _ _ => (sim_load _ _ _).bind fun _ _ _ => (sim_load _ _ _).bind fun _ _ _ => .pure trivial

theorem sim_ldMsg (p : Ptr) : Sim st gl SameLen (ldMsg p) (ldMsg p) :=
  (sim_load _ _ _).bind fun _ _ h => (sim_load _ _ _).bind fun _ _ h' => (sim_load _ _ _).bind fun _ _ h'' =>
    .pure (by simp only [SameLen, List.length_append, h, h', h''])

theorem primsK128aShape : PrimsShape primsK128a :=
  ⟨fun _ _ => sameLen_unwords _ _, fun _ _ => sameLen_unwords _ _, fun _ _ => sameLen_unwords _ _,
    fun _ _ => sameLen_unwords _ _, sim_ldBlk, sim_ldMsg⟩

theorem primsK128Shape : PrimsShape primsK128 :=
  ⟨fun _ _ => sameLen_unwords _ _, fun _ _ => sameLen_unwords _ _, fun _ _ => sameLen_unwords _ _,
    fun _ _ => sameLen_unwords _ _, sim_ldBlk, sim_ldMsg⟩

end Opt64

namespace Avx

theorem sameLen_unwords (A B : V) : SameLen (unwords A) (unwords B) := by
  simp [SameLen, unwords, List.length_flatMap, List.map_const']

theorem sim_ld (p : Ptr) : Sim st gl SameLen (load 1 18 p) (load 1 18 p) :=
  (sim_load 1 18 p).imp fun _ _ h => h.1.trans h.2.symm

theorem sameLen_perm (n : Nat) (S T : List Byte) : SameLen (perm n S) (perm n T) := sameLen_unwords _ _

attribute [local irreducible] perm

theorem primsShape (j : Junk) : PrimsShape (prims j) :=
  ⟨sameLen_perm 16, sameLen_perm 1, sameLen_perm 8, sameLen_perm 8, fun p => (sim_ld p).imp fun _ _ _ => trivial, sim_ld⟩

end Avx

namespace Arm

theorem V7.sim_roundOdd (fuel i : Nat) (A B : KeccakRef.Lanes) (p q : V7.Carry) :
    Sim st gl Any (V7.roundOdd fuel i A p) (V7.roundOdd fuel i B q) := by
  induction fuel generalizing i A B p q with
  | zero => exact .ub
  | succ fuel ih => exact sim_if (fun _ => ih _ _ _ _ _) fun _ => .pure trivial

theorem V7.sim_permute (n : Nat) (A B : KeccakRef.Lanes) : Sim st gl Any (V7.permute n A) (V7.permute n B) :=
  sim_if (fun _ => V7.sim_roundOdd _ _ _ _ _ _) fun _ => V7.sim_roundOdd _ _ _ _ _ _

theorem V6.sim_roundOdd (fuel i : Nat) (A B : KeccakRef.Lanes) :
    Sim st gl Any (V6.roundOdd fuel i A) (V6.roundOdd fuel i B) := by
  induction fuel generalizing i A B with
  | zero => exact .ub
  | succ fuel ih => exact sim_if (fun _ => .pure trivial) fun _ => ih _ _ _

theorem V6.sim_permute (n : Nat) (A B : KeccakRef.Lanes) : Sim st gl Any (V6.permute n A) (V6.permute n B) :=
  sim_if (fun _ => V6.sim_roundOdd _ _ _ _) fun _ => V6.sim_roundOdd _ _ _ _

/-- The branches of the permutation do not depend on the state. -/
def PrimsShape (F : Arm.Prims) : Prop := ∀ n A B, Sim false false Any (F.permute n A) (F.permute n B)

theorem sim_loadsDown (n : Nat) (p : Ptr) : Sim st gl SameLen (loadsDown n p) (loadsDown n p) := by
  unfold loadsDown
  refine sim_forN (R := SameLen) ?_ _ _ rfl
  intro i x y h
  refine (sim_load8 _).bind fun _ _ _ => .pure ?_
  have h : x.length = y.length := h
  simp only [SameLen, List.length_cons, h]

variable {F : Arm.Prims} (Q : PrimsShape F)
include Q

theorem sim_perm (n : Nat) (S T : List Byte) : Sim st gl SameLen (F.perm n S) (F.perm n T) :=
  ((Q n _ _).weaken (fun h => nomatch h) (fun h => nomatch h)).bind fun _ _ _ => .pure (Opt64.sameLen_unwords _ _)

theorem sim_absorb (x y : List Byte) (src : Ptr) (len : Nat) :
    Sim st gl SameLen (absorb F x src len) (absorb F y src len) := by
  unfold absorb
  refine (sim_whileGe (R := Any) ?_ _ _ trivial).bind fun _ _ _ => ?_
  · exact fun i x y _ => (sim_loads _ _ _ _).bind fun _ _ _ => (sim_perm Q _ _ _).imp fun _ _ _ => trivial
  refine (sim_forN (R := Any) ?_ _ _ trivial).bind fun _ _ _ => sim_perm Q _ _ _
  exact fun i x y _ => (sim_load8 _).bind fun _ _ _ => .pure trivial

theorem sim_initState (p : Ptr) (n : Nat) : Sim st gl Any (initState F p n) (initState F p n) :=
  (sim_loadsDown _ _).bind fun _ _ _ => .pure trivial

theorem sim_isapRk (k : Ptr) (n : Nat) {x y : Src} (h : SrcSim x y) (outlen : Nat) :
    Sim st gl SameLen (isapRk F k n x outlen) (isapRk F k n y outlen) := by
  unfold isapRk
  refine (sim_initState Q _ _).bind fun _ _ _ => (sim_perm Q _ _ _).bind fun _ _ _ => ?_
  refine (sim_forN (R := Any) ?_ _ _ trivial).bind fun _ _ _ => ?_
  · exact fun i a b _ => (sim_get h _).bind fun _ _ _ => (sim_perm Q _ _ _).imp fun _ _ _ => trivial
  refine (sim_get h _).bind fun _ _ _ => (sim_perm Q _ _ _).bind fun S T h => .pure ?_
  have h : S.length = T.length := h
  simp only [SameLen, List.length_take, h]

theorem sim_isapMac (k npub ad : Ptr) (adlen : Nat) (c : Ptr) (clen : Nat) :
    Sim st gl SameLen (isapMac F k npub ad adlen c clen) (isapMac F k npub ad adlen c clen) := by
  unfold isapMac
  refine (sim_initState Q _ _).bind fun _ _ _ => (sim_perm Q _ _ _).bind fun _ _ _ => ?_
  refine (sim_absorb Q _ _ _ _).bind fun _ _ _ => (sim_absorb Q _ _ _ _).bind fun S T h => ?_
  have h : S.length = T.length := h
  refine (sim_isapRk Q k _ (x := .loc _) (y := .loc _) ?_ _).bind fun _ _ _ => (sim_perm Q _ _ _).bind fun S T h => .pure ?_
  · show (S.take 16).length = (T.take 16).length
    simp only [List.length_take, h]
  · have h : S.length = T.length := h
    simp only [SameLen, List.length_take, h]

omit Q in
theorem sim_encBlock (m c : Ptr) {x y : List Byte} (h : SameLen x y) : Sim true gl Any (encBlock m c x) (encBlock m c y) := by
  unfold encBlock
  refine (sim_forN (R := Any) ?_ _ _ trivial).bind fun _ _ _ => .pure trivial
  intro i _ _ _
  refine (sim_load _ _ _).bind fun a b h' => sim_store ?_
  have h : x.length = y.length := h
  simp only [List.length_zipWith, List.length_take, List.length_drop, h, h'.1, h'.2]

theorem sim_isapEnc (k npub m : Ptr) (mlen : Nat) (c : Ptr) :
    Sim true gl Any (isapEnc F k npub m mlen c) (isapEnc F k npub m mlen c) := by
  unfold isapEnc
  refine (sim_isapRk Q k _ (x := .ext _) (y := .ext _) rfl _).bind fun _ _ _ => ?_
  refine (sim_loadsDown _ _).bind fun _ _ _ => ?_
  refine (sim_whileGe (R := Any) ?_ _ _ trivial).bind fun _ _ _ => ?_
  · exact fun i x y _ => (sim_perm Q _ _ _).bind fun _ _ h => (sim_encBlock _ _ h).bind fun _ _ _ => .pure trivial
  refine sim_ifThen fun _ => (sim_perm Q _ _ _).bind fun _ _ _ => ?_
  refine (sim_forN (R := Any) ?_ _ _ trivial).bind fun _ _ _ => .pure trivial
  exact fun i _ _ _ => (sim_load8 _).bind fun _ _ _ => sim_store8 _ _ _

theorem shape : Shape gl (impl F) :=
  ⟨fun _ _ _ _ _ => sim_isapEnc Q _ _ _ _ _, fun _ _ _ _ _ _ => sim_isapMac Q _ _ _ _ _ _⟩

omit Q

theorem primsK128aV7Shape : PrimsShape primsK128aV7 := V7.sim_permute
theorem primsK128aV6Shape : PrimsShape primsK128aV6 := V6.sim_permute
theorem primsK128V7Shape : PrimsShape primsK128V7 := V7.sim_permute
theorem primsK128V6Shape : PrimsShape primsK128V6 := V6.sim_permute

end Arm

end K128

/-! ## The API -/

theorem sim_storeTag (al : Nat) (p : Ptr) {x y : List Byte} (h : SameLen x y) :
    Sim true gl Any (storeTag al p x) (storeTag al p y) := by
  unfold storeTag
  refine sim_forN (R := Any) ?_ _ _ trivial
  intro i _ _ _
  refine sim_store ?_
  have h : x.length = y.length := h
  simp only [List.length_take, List.length_drop, h]

theorem sim_encrypt {I : Impl} (P : Shape gl I) (c clen m : Ptr) (mlen : Nat) (ad : Ptr) (adlen : Nat) (nsec npub k : Ptr) :
    Sim true gl Eq (encrypt I c clen m mlen ad adlen nsec npub k) (encrypt I c clen m mlen ad adlen nsec npub k) := by
  unfold encrypt
  refine (sim_storeLen _ _).bind fun _ _ _ => ?_
  refine (sim_ifThen fun _ => P.enc _ _ _ _ _).bind fun _ _ _ => ?_
  refine ((P.mac _ _ _ _ _ _).weaken (fun h => nomatch h) id).bind fun _ _ h => ?_
  exact (sim_storeTag _ _ h).bind fun _ _ _ => .pure rfl

/-- The length cell contains `n`. -/
def LenIs (p : Ptr) (n : Nat) (s t : St) : Prop :=
  bytesAt s p 8 = toLe64 (BitVec.ofNat 64 n) ∧ bytesAt t p 8 = toLe64 (BitVec.ofNat 64 n)

theorem LenIs.of_mem {p : Ptr} {n : Nat} {s t s' t' : St} (h : LenIs p n s t) (hm : s'.mem = s.mem ∧ t'.mem = t.mem) :
    LenIs p n s' t' := by
  simp only [LenIs, bytesAt] at h ⊢
  rw [hm.1, hm.2]
  exact h

theorem alike_storeLen (p : Ptr) (n : Nat) (e : Env) (s t : St) :
    Alike (fun _ s' _ t' => LenIs p n s' t') (run (storeLen p n) e s) (run (storeLen p n) e t) := by
  have hl : (toLe64 (BitVec.ofNat 64 n)).length = 8 := by simp [toLe64]
  have key : ∀ s : St, bytesAt (putBytes s p (toLe64 (BitVec.ofNat 64 n))) p 8 = toLe64 (BitVec.ofNat 64 n) := by
    intro s
    have := bytesAt_putBytes_same s p (toLe64 (BitVec.ofNat 64 n))
    rwa [hl] at this
  simp only [storeLen, store, run]
  split
  · split
    · split
      · exact ⟨rfl, key s, key t⟩
      · trivial
    · trivial
  · trivial

theorem alike_loadLen {p : Ptr} {n : Nat} {e : Env} {s t : St} (h : LenIs p n s t) :
    Alike (fun a s' b t' => a = b ∧ LenIs p n s' t') (run (loadLen p) e s) (run (loadLen p) e t) := by
  have e1 : ∀ s, run (loadLen p) e s = (run (load 1 8 p) e s).andThen fun bs s' => run (pure (le64 bs).toNat : CM Nat) e s' :=
    fun s => run_bind _ _ _ _
  rw [e1, e1]
  simp only [load, run]
  split
  · split
    · rw [h.1, h.2]
      exact ⟨rfl, rfl, h⟩
    · trivial
  · trivial

theorem alike_forN {σ : Type} {R : σ → St → σ → St → Prop} {f g : Nat → σ → CM σ} {e : Env}
    (h : ∀ i x s y t, R x s y t → Alike R (run (f i x) e s) (run (g i y) e t)) (n i : Nat) {x y : σ} {s t : St}
    (hx : R x s y t) : Alike R (run (forN n i f x) e s) (run (forN n i g y) e t) := by
  induction n generalizing i x y s t with
  | zero => exact ⟨rfl, hx⟩
  | succ n ih =>
    refine Alike.bind (R := fun _ s' _ t' => s' = s ∧ t' = t) ⟨rfl, rfl, rfl⟩ ?_
    rintro _ s' _ t' ⟨rfl, rfl⟩
    exact (h i x _ y _ hx).bind fun a s b t hab => ih (i + 1) hab

/-- Two runs that end with the same value have the same trace. -/
def DecAlike (o o' : Out Int) : Prop := ∀ a s tr t tr', o = .ok a s tr → o' = .ok a t tr' → tr = tr'

theorem Alike.decAlike {R : Int → St → Int → St → Prop} {o o' : Out Int} (h : Alike R o o') : DecAlike o o' := by
  intro a s tr t tr' h1 h2
  subst h1; subst h2
  exact h.1

theorem DecAlike.bind {α β : Type} {R : α → St → β → St → Prop} {f : CM α} {g : CM β} {h : α → CM Int} {h' : β → CM Int} {e : Env}
    {s t : St} (H : Alike R (run f e s) (run g e t))
    (H' : ∀ a s' b t', R a s' b t' → DecAlike (run (h a) e s') (run (h' b) e t')) :
    DecAlike (run (f >>= h) e s) (run (g >>= h') e t) := by
  rw [run_bind, run_bind]
  generalize run f e s = o at H
  generalize run g e t = o' at H
  cases o with
  | ub u => exact fun _ _ _ _ _ h => nomatch h
  | ok a s' tr => cases o' with
    | ub v => exact H.elim
    | ok b t' tr' =>
      have H2 := H' a s' b t' H.2
      simp only [Out.andThen]
      generalize run (h a) e s' = o at H2
      generalize run (h' b) e t' = o' at H2
      cases o with
      | ub u => exact fun _ _ _ _ _ h => nomatch h
      | ok a2 s2 tr2 => cases o' with
        | ub u => exact fun _ _ _ _ _ _ h => nomatch h
        | ok b2 t2 tr2' =>
          intro x _ _ _ _ h1 h2
          injection h1 with h11 h12 h13
          injection h2 with h21 h22 h23
          subst h11; subst h13; subst h23; subst h21
          rw [H.1, H2 _ _ _ _ _ rfl rfl]

/-- The last part of decryption: the decision and, if positive, the decryption proper. -/
theorem decAlike_finish {enc : Nat → CM Unit} (hE : ∀ l, Sim true gl Any (enc l) (enc l)) {p : Ptr} {n : Nat} {e : Env} {s t : St}
    (h : LenIs p n s t) (b b' : Bool) :
    DecAlike
      (run (branch b >>= fun ok => if ok then (loadLen p >>= fun l => ifThen (l > 0) (loadLen p >>= enc) >>= fun _ => pure 0)
        else pure (-1)) e s)
      (run (branch b' >>= fun ok => if ok then (loadLen p >>= fun l => ifThen (l > 0) (loadLen p >>= enc) >>= fun _ => pure 0)
        else pure (-1)) e t) := by
  cases b <;> cases b'
  · exact Alike.decAlike (R := fun _ _ _ _ => True) ⟨rfl, trivial⟩
  · intro a s' tr t' tr' h1 h2
    have h1 : Out.ok (-1) s [.br false] = .ok a s' tr := h1
    injection h1 with h1
    subst h1
    have h3 : Runs (loadLen p >>= fun l => ifThen (l > 0) (loadLen p >>= enc) >>= fun _ => pure 0) e t (-1) t' := by
      rw [run_bind] at h2
      have h2 : ((run (loadLen p >>= fun l => ifThen (l > 0) (loadLen p >>= enc) >>= fun _ => (pure 0 : CM Int)) e t).cons (.br true)) = .ok (-1) t' tr' := by
        rw [← h2]; 
        simp only [branch, run, Out.cons, Out.andThen, if_true]
        generalize run _ e t = o
        cases o <;> rfl
      obtain ⟨x, hx, _⟩ := Out.cons_ok h2
      exact ⟨x, hx⟩
    obtain ⟨_, _, _, h3⟩ := runs_bind_inv h3
    obtain ⟨_, _, _, h3⟩ := runs_bind_inv h3
    have := (Runs.det h3 (runs_pure _ _ _)).1
    exact absurd this (by decide)
  · intro a s' tr t' tr' h1 h2
    have h2 : Out.ok (-1) t [.br false] = .ok a t' tr' := h2
    injection h2 with h2
    subst h2
    have h3 : Runs (loadLen p >>= fun l => ifThen (l > 0) (loadLen p >>= enc) >>= fun _ => pure 0) e s (-1) s' := by
      rw [run_bind] at h1
      have h1 : ((run (loadLen p >>= fun l => ifThen (l > 0) (loadLen p >>= enc) >>= fun _ => (pure 0 : CM Int)) e s).cons (.br true)) = .ok (-1) s' tr := by
        rw [← h1]; 
        simp only [branch, run, Out.cons, Out.andThen, if_true]
        generalize run _ e s = o
        cases o <;> rfl
      obtain ⟨x, hx, _⟩ := Out.cons_ok h1
      exact ⟨x, hx⟩
    obtain ⟨_, _, _, h3⟩ := runs_bind_inv h3
    obtain ⟨_, _, _, h3⟩ := runs_bind_inv h3
    have := (Runs.det h3 (runs_pure _ _ _)).1
    exact absurd this (by decide)
  · refine Alike.decAlike (R := fun _ _ _ _ => True) ?_
    refine Alike.bind (R := fun a s' b t' => a = true ∧ b = true ∧ LenIs p n s' t') ⟨rfl, rfl, rfl, h⟩ ?_
    rintro _ s' _ t' ⟨rfl, rfl, h⟩
    refine (alike_loadLen h).bind ?_
    rintro l s' _ t' ⟨rfl, h⟩
    refine Alike.bind (R := fun _ _ _ _ => True) ?_ fun _ _ _ _ _ => ⟨rfl, trivial⟩
    refine Alike.bind (R := fun a s' b t' => a = b ∧ LenIs p n s' t') ⟨rfl, rfl, h⟩ ?_
    rintro c s' _ t' ⟨rfl, h⟩
    cases c
    · exact ⟨rfl, trivial⟩
    · refine (alike_loadLen h).bind ?_
      rintro l s' _ t' ⟨rfl, h⟩
      exact ((hE l).alike e s' t').imp fun _ _ _ _ _ => trivial

theorem decAlike_decrypt {I : Impl} (P : Shape gl I) (m mlen nsec c : Ptr) (clen : Nat) (ad : Ptr) (adlen : Nat) (npub k : Ptr)
    (e : Env) (s t : St) :
    DecAlike (run (decrypt I m mlen nsec c clen ad adlen npub k) e s) (run (decrypt I m mlen nsec c clen ad adlen npub k) e t) := by
  unfold decrypt
  refine DecAlike.bind (alike_storeLen _ _ e s t) fun _ s t' _ h => ?_
  refine DecAlike.bind (alike_loadLen h) ?_
  rintro l s _ t ⟨rfl, h⟩
  refine DecAlike.bind ((P.mac k npub ad adlen c l).alike e s t) ?_
  rintro x s' y t' ⟨_, hm⟩
  have h := h.of_mem (hm rfl)
  refine DecAlike.bind (alike_forN (R := fun _ s _ t => LenIs mlen (clen + (2 ^ 64 - 16)) s t) ?_ _ _ h) ?_
  · intro i a s b t h
    refine (alike_loadLen h).bind ?_
    rintro l s _ t ⟨rfl, h⟩
    refine ((sim_load8 (st := false) (gl := false) _).alike e s t).bind ?_
    rintro _ s' _ t' ⟨_, hm⟩
    exact ⟨rfl, h.of_mem (hm rfl)⟩
  intro a s b t h
  exact decAlike_finish (fun l => P.enc k npub c l m) h _ _

theorem Opt.Stp.decAlike_decrypt {D : StpPrims} (P : PrimsShape D.toPrims) (hP : ∀ x y, Sim false false Any (D.pPVP x) (D.pPVP y))
    (m mlen nsec c : Ptr) (clen : Nat) (ad : Ptr) (adlen : Nat) (npub k : Ptr) (e : Env) (s t : St) :
    DecAlike (run (Stp.decrypt D m mlen nsec c clen ad adlen npub k) e s)
      (run (Stp.decrypt D m mlen nsec c clen ad adlen npub k) e t) := by
  unfold Stp.decrypt
  refine DecAlike.bind (alike_storeLen _ _ e s t) fun _ s t' _ h => ?_
  refine DecAlike.bind (alike_loadLen h) ?_
  rintro l s _ t ⟨rfl, h⟩
  refine DecAlike.bind (((shape P).mac k npub ad adlen c l).alike e s t) ?_
  rintro x s' y t' ⟨_, hm⟩
  have h := h.of_mem (hm rfl)
  refine DecAlike.bind (alike_forN (R := fun _ s _ t => LenIs mlen (clen + (2 ^ 64 - 16)) s t) ?_ _ _ h) ?_
  · intro i a s b t h
    refine (alike_loadLen h).bind ?_
    rintro l s _ t ⟨rfl, h⟩
    refine ((sim_load8 (st := false) (gl := false) _).alike e s t).bind ?_
    rintro _ s' _ t' ⟨_, hm⟩
    exact ⟨rfl, h.of_mem (hm rfl)⟩
  intro a s b t h
  refine DecAlike.bind ((sim_pvp (st := false) hP _ _ _ _).alike e s t) ?_
  rintro n1 s' n2 t' ⟨_, hm⟩
  have h := h.of_mem (hm rfl)
  exact decAlike_finish (fun l => (shape P).enc k npub c l m) h _ _

/-! ## The AVX-512 version of ISAP-A-128a -/

namespace A128.Avx

/-- The variables of the loop that are not data. -/
abbrev SameIdx : Loc → Loc → Prop := fun v w => v.idxEnc = w.idxEnc ∧ v.idxMac = w.idxMac ∧ v.remMac = w.remMac

theorem sim_encbytes1 (rem : Int) : Sim st gl Eq (encbytes1 rem) (encbytes1 rem) :=
  sim_if (fun _ => .pure rfl) fun _ => .pure rfl

theorem sim_encbytes2 (rem : Int) (n : Nat) : Sim st gl Eq (encbytes2 rem n) (encbytes2 rem n) :=
  sim_if (fun _ => .pure rfl) fun _ => sim_if (fun _ => .pure rfl) fun _ => .pure rfl

theorem sim_loadMsg (p : Ptr) (n : Nat) : Sim st gl Any (loadMsg p n) (loadMsg p n) := by
  refine sim_forN (R := Any) ?_ _ _ trivial
  exact fun i x y _ => (sim_load8 _).bind fun _ _ _ => .pure trivial

theorem sim_macLane (c : Ptr) (idx : Nat) (rem : Int) : Sim st gl Any (macLane c idx rem) (macLane c idx rem) := by
  refine sim_forN (R := Any) ?_ _ _ trivial
  intro i x y _
  unfold Opt64.padByte
  refine sim_if (fun _ => (sim_load8 _).bind fun _ _ _ => .pure trivial) fun _ => ?_
  exact sim_if (fun _ => .pure trivial) fun _ => .pure trivial

theorem sim_macInput (d : DataModel) (c : Ptr) (mlen : Nat) (rem : Int) (idx : Nat) (remMac : Int) :
    Sim st gl (fun x y => x.2 = y.2) (macInput d c mlen rem idx remMac) (macInput d c mlen rem idx remMac) :=
  sim_if (fun _ => (sim_macLane _ _ _).bind fun _ _ _ => .pure rfl) fun _ => .pure rfl

theorem sim_storeLane (c : Ptr) (x y : BitVec 64) (n : Nat) : Sim true gl Any (storeLane c x n) (storeLane c y n) := by
  refine sim_forN (R := Any) ?_ _ _ trivial
  exact fun i _ _ _ => (sim_get (x := .loc _) (y := .loc _) (by simp [SrcSim, toLe64]) _).bind fun _ _ _ => sim_store8 _ _ _

theorem sim_body (dm : DataModel) (m c : Ptr) (mlen : Nat) (rem : Int) (v w : Loc) (h : SameIdx v w) :
    Sim true gl SameIdx (body dm m c mlen rem v) (body dm m c mlen rem w) := by
  obtain ⟨x, i, j, r, d⟩ := v
  obtain ⟨x', i', j', r', d'⟩ := w
  obtain ⟨h1, h2, h3⟩ := h
  cases h1; cases h2; cases h3
  unfold body
  refine (sim_encbytes1 _).bind ?_
  rintro n1 _ rfl
  refine (sim_encbytes2 _ _).bind ?_
  rintro n2 _ rfl
  refine (sim_loadMsg _ _).bind fun _ _ _ => (sim_loadMsg _ _).bind fun _ _ _ => ?_
  refine (sim_macInput _ _ _ _ _ _).bind ?_
  rintro ⟨_, a, b⟩ ⟨_, a', b'⟩ h
  cases h
  exact (sim_storeLane _ _ _ _).bind fun _ _ _ => (sim_storeLane _ _ _ _).bind fun _ _ _ => .pure ⟨rfl, rfl, rfl⟩

theorem sim_doWhile {σ : Type} {R : σ → σ → Prop} {f : Int → σ → CM σ} (h : ∀ r x y, R x y → Sim st gl R (f r x) (f r y))
    (rem : Int) (x y : σ) (hx : R x y) : Sim st gl R (doWhile f rem x) (doWhile f rem y) := by
  generalize hk : rem.toNat = k
  induction k using Nat.strongRecOn generalizing rem x y with
  | _ k ih =>
    rw [doWhile, doWhile]
    refine (h _ _ _ hx).bind fun x y hxy => ?_
    split
    · exact (sim_branch _).bind fun _ _ _ => ih _ (by omega) _ _ _ hxy rfl
    · exact (sim_branch _).bind fun _ _ _ => .pure hxy

theorem sim_macRest (d : DataModel) (c : Ptr) (rem : Int) (idx : Nat) (x y : Opt.State) :
    Sim st gl Any (macRest d c rem idx x) (macRest d c rem idx y) := by
  generalize hk : (rem + 8).toNat = k
  induction k using Nat.strongRecOn generalizing rem idx x y with
  | _ k ih =>
    rw [macRest, macRest]
    split
    · exact (sim_branch _).bind fun _ _ _ => (sim_macLane _ _ _).bind fun _ _ _ => ih _ (by omega) _ _ _ _ rfl
    · exact (sim_branch _).bind fun _ _ _ => .pure trivial

theorem sim_start (d : DataModel) (k npub ad : Ptr) (adlen : Nat) : Sim st gl Any (start d k npub ad adlen) (start d k npub ad adlen) := by
  unfold start
  refine (Opt64.sim_isapRk _ k _ (x := .ext _) (y := .ext _) rfl _ _ _).bind fun _ _ _ => ?_
  refine (sim_load64 _).bind fun _ _ _ => (sim_load64 _).bind fun _ _ _ => ?_
  refine (sim_load64 _).bind fun _ _ _ => (sim_load64 _).bind fun _ _ _ => ?_
  exact (Opt64.sim_absorbLanes _ _ _ _ _ _).bind fun _ _ _ => .pure trivial

theorem sim_isapMacEnc (d : DataModel) (k npub ad : Ptr) (adlen : Nat) (c m : Ptr) (mlen : Nat) :
    Sim true gl SameLen (isapMacEnc d k npub ad adlen c m mlen) (isapMacEnc d k npub ad adlen c m mlen) := by
  unfold isapMacEnc
  refine (sim_start _ _ _ _ _).bind fun _ _ _ => ?_
  refine (sim_doWhile (R := SameIdx) (sim_body d m c mlen) _ _ _ (by exact ⟨rfl, rfl, rfl⟩)).bind ?_
  rintro ⟨x, i, j, r, ds⟩ ⟨x', i', j', r', ds'⟩ ⟨h1, h2, h3⟩
  cases h1; cases h2; cases h3
  refine (sim_macRest _ _ _ _ _ _).bind fun _ _ _ => ?_
  refine (Opt64.sim_isapRk _ k _ (x := .loc _) (y := .loc _) (Opt.sameLen_tag _ _ _ _) _ _ _).bind fun _ _ _ => ?_
  exact .pure (Opt.sameLen_tag _ _ _ _)

theorem sim_encrypt (d : DataModel) (c clen m : Ptr) (mlen : Nat) (ad : Ptr) (adlen : Nat) (nsec npub k : Ptr) :
    Sim true gl Eq (encrypt d c clen m mlen ad adlen nsec npub k) (encrypt d c clen m mlen ad adlen nsec npub k) := by
  unfold encrypt
  refine (sim_storeLen _ _).bind fun _ _ _ => ?_
  refine (sim_isapMacEnc _ _ _ _ _ _ _ _).bind fun _ _ h => ?_
  exact (sim_storeTag _ _ h).bind fun _ _ _ => .pure rfl

end A128.Avx

/-! ## All implementations -/

namespace Opt

theorem switch_shape {κ : Type} (round : Opt.State → κ → Opt.State) (c12 c6 c1 : List κ) (f g h : BitVec 64 → BitVec 64) :
    PrimsShape (viaProunds (switchRounds round c12 c6 c1) f g h) :=
  viaProunds_shape (fun n x y => sim_switch round c12 c6 c1 n x y) f g h

theorem tiny_shape (round : Opt.State → Byte → Opt.State) (f g h : BitVec 64 → BitVec 64) :
    PrimsShape (viaProunds (tinyRounds round) f g h) :=
  viaProunds_shape (fun n x y => by unfold tinyRounds; exact sim_tinyLoop round _ _ x y) f g h

/-- The two conditions on the primitives of an stp variant. -/
structure StpShape (D : StpPrims) : Prop where
  prims : PrimsShape D.toPrims
  pvp : ∀ x y, Sim false false Any (D.pPVP x) (D.pPVP y)

theorem switch7_shape {κ : Type} (round : Opt.State → κ → Opt.State) (c12 c6 c1 : List κ) (f g h : BitVec 64 → BitVec 64) :
    StpShape (viaProunds7 (switchRounds7 round c12 c6 c1) f g h) :=
  ⟨viaProunds_shape (fun n x y => sim_switch7 round c12 c6 c1 n x y) f g h, fun x y => sim_switch7 round c12 c6 c1 7 x y⟩

end Opt

/-- The shape of an implementation: the functions of `isap.c`, linked with the common `crypto_aead.c`, that of the AVX-512
version or that of the stp variants, have a fixed shape. -/
inductive AeadShape : Bool → Aead → Prop where
  | common {I : Impl} : Shape false I → AeadShape false I.aead
  | fused {d : DataModel} : AeadShape false (A128.Avx.aead d)
  | stp {D : Opt.StpPrims} : Opt.StpShape D → AeadShape true (Opt.Stp.aead D)

theorem Target.shape (t : Target) : AeadShape t.stp t.aead := by
  cases t
  case ref p => exact .common (Ref.shape p.permShape)
  case x p => exact .common (Ref.shape p.permShape)
  case a128aOpt32Stp => exact .stp (Opt.switch7_shape _ _ _ _ _ _ _)
  case a128aBi32Stp => exact .stp (Opt.switch7_shape _ _ _ _ _ _ _)
  case a128aBi32Armv6mStp => exact .stp (Opt.switch7_shape _ _ _ _ _ _ _)
  case a128aAvx512 => exact .fused
  case a128Opt64 => exact .common (A128.Opt64.shape _)
  case a128Opt32 => exact .common (A128.Opt32.shape A128.Opt32.primsShape)
  case a128Opt32Armv67m => exact .common (A128.Opt32.shape A128.Opt32.primsArmShape)
  case k128aOpt64 => exact .common (K128.shape K128.Opt64.primsK128aShape)
  case k128Opt64 => exact .common (K128.shape K128.Opt64.primsK128Shape)
  case k128aAvx512 j => exact .common (K128.shape (K128.Avx.primsShape j))
  case k128aOpt32Armv6m => exact .common (K128.Arm.shape K128.Arm.primsK128aV6Shape)
  case k128aOpt32Armv7m => exact .common (K128.Arm.shape K128.Arm.primsK128aV7Shape)
  case k128Opt32Armv6m => exact .common (K128.Arm.shape K128.Arm.primsK128V6Shape)
  case k128Opt32Armv7m => exact .common (K128.Arm.shape K128.Arm.primsK128V7Shape)
  all_goals first
    | exact .common (Opt.shape (Opt.unrolled_shape _ _ _ _ _ _ _))
    | exact .common (Opt.shape (Opt.switch_shape _ _ _ _ _ _ _))
    | exact .common (Opt.shape (Opt.tiny_shape _ _ _ _))

theorem AeadShape.encrypt {b : Bool} {A : Aead} (h : AeadShape b A) (a : EncArgs) :
    Sim true b Eq (A.encrypt a) (A.encrypt a) := by
  cases h with
  | common P => exact sim_encrypt P _ _ _ _ _ _ a.nsec _ _
  | fused => exact A128.Avx.sim_encrypt _ _ _ _ _ _ _ a.nsec _ _
  | stp P => exact sim_encrypt (Opt.Stp.shape P.prims) _ _ _ _ _ _ a.nsec _ _

theorem AeadShape.decrypt {b : Bool} {A : Aead} (h : AeadShape b A) (a : DecArgs) (e : Env) (s t : St) :
    DecAlike (run (A.decrypt a) e s) (run (A.decrypt a) e t) := by
  cases h with
  | common P => exact decAlike_decrypt P _ _ a.nsec _ _ _ _ _ _ _ _ _
  | fused => exact decAlike_decrypt (gl := false) (I := A128.Avx.impl _) (A128.Opt64.shape _) _ _ a.nsec _ _ _ _ _ _ _ _ _
  | stp P => exact Opt.Stp.decAlike_decrypt P.prims P.pvp _ _ a.nsec _ _ _ _ _ _ _ _ _

end Model
