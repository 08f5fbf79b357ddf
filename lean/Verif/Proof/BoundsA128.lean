import Verif.Model.BoundsA128
import Verif.Proof.BoundsOpt
/-!
# The optimized ISAP-A-128 versions and avx_512 of ISAP-A-128a never leave their arrays
-/

namespace Model.A128
open C
open Opt (State)
open Opt.Chk (words readState readState_of y_src ix8_ok)

namespace Opt64.Chk

/-- The array `lane8` after the first elements have been written. -/
abbrev RL (init : Arr Byte) : Nat → Arr Byte → List Byte → Prop := fun i a b => a = Arr.of b ++ init.drop i ∧ b.length = i

theorem set_next {init : Arr Byte} {b : List Byte} {i : Nat} (hi : init.length = 8) (h : i < 8) (hb : b.length = i) (d : Byte) :
    aset (Arr.of b ++ init.drop i) i d = .ret (Arr.of (b ++ [d]) ++ init.drop (i + 1)) := by
  rw [aset_lt (by simp; omega)]
  congr 1
  have e : init.drop i = init[i]'(by omega) :: init.drop (i + 1) := List.drop_eq_getElem_cons (by omega)
  rw [e, List.set_append_right _ _ (by simp [hb])]
  rw [Arr.length_of, hb, Nat.sub_self, List.set_cons_zero]
  simp [Arr.of]

theorem padByte_chk {init : Arr Byte} (hi : init.length = 8) (src : Ptr) (rem i : Nat) (h : i < 8) {a : Arr Byte}
    {b : List Byte} (hab : RL init i a b) :
    Chk (RL init (i + 1)) (padByte src rem i a) (Opt64.padByte src rem i b) := by
  obtain ⟨rfl, hb⟩ := hab
  unfold padByte Opt64.padByte
  refine chk_if (fun _ => ?_) fun _ => chk_if (fun _ => ?_) fun _ => ?_
  · refine (chk_load8 _).bindEq fun d => ?_
    rw [set_next hi h hb]; exact .ret ⟨rfl, by simp [hb]⟩
  · rw [set_next hi h hb]; exact .ret ⟨rfl, by simp [hb]⟩
  · rw [set_next hi h hb]; exact .ret ⟨rfl, by simp [hb]⟩

theorem lane_chk {init : Arr Byte} (hi : init.length = 8) (src : Ptr) (rem : Nat) :
    Chk (fun a b => a = Arr.of b ∧ b.length = 8) (forN 8 0 (padByte src rem) init) (forN 8 0 (Opt64.padByte src rem) []) := by
  refine (chk_forN (I := RL init) (n := 8) (i := 0) (fun j x y _ hj h => padByte_chk hi src rem j (by omega) h)
    ⟨by simp [Arr.of], rfl⟩).imp ?_
  rintro a b ⟨rfl, hb⟩
  exact ⟨by simp [hi], hb⟩

theorem areads_all {α : Type} {l : List α} {n : Nat} (h : l.length = n) : areads (Arr.of l) 0 n = .ret l := by
  rw [areads_of (by omega)]
  simp [← h]

theorem absorbLanes_chk (pH : State → State) (d : DataModel) (s : State) (src : Ptr) (len : Nat) :
    Chk Eq (absorbLanes pH d s src len) (Opt64.absorbLanes pH d s src len) := by
  unfold absorbLanes Opt64.absorbLanes
  refine chk_whileRem (R := Eq) ?_ ?_ ?_ _ _ rfl
  · rintro i x _ rfl
    exact (chk_load64 _).bindEq fun _ => .ret rfl
  · rintro i x _ rfl
    exact (chk_load64 _).bindEq fun _ => .ret rfl
  · rintro i n x _ hn rfl
    refine (lane_chk (by simp [Arr.new]) _ _).bind ?_
    rintro _ l ⟨rfl, hl⟩
    exact .step (areads_all hl) (.ret rfl)

theorem absorbMac_chk (pH : State → State) (d : DataModel) (s : State) (src : Ptr) (len : Nat) :
    Chk Eq (absorbMac pH d s src len) (Opt64.absorbMac pH d s src len) := by
  unfold absorbMac Opt64.absorbMac
  exact (absorbLanes_chk pH d s src len).bind fun a b h => by cases h; exact .ret rfl

variable {D : Cfg} (hiv : ∀ n, (D.iv n).length = 8)
include hiv

theorem isapRk16_chk (k : Ptr) (n : Nat) {x : CSrc} {y : Src} (h : SrcChk 16 x y) (o : State) :
    Chk Opt.Chk.RW (isapRk D k (Arr.of (D.iv n)) x (Arr.of (words o)) 16) (Opt64.isapRk D k (D.iv n) y o 16) := by
  unfold isapRk Opt64.isapRk
  refine (chk_load64 _).bindEq fun k0 => (chk_load64 _).bindEq fun k1 => .step (areads_all (hiv n)) ?_
  refine Chk.bind (R := Eq) (chk_forN' (R := Eq) ?_ rfl) ?_
  · rintro i x _ _ hi rfl
    refine (chk_get h (by omega)).bind ?_
    rintro yb _ rfl
    exact .ret rfl
  · rintro s _ rfl
    refine (chk_get h (by omega)).bind ?_
    rintro yb _ rfl
    refine .step (aset_of (by simp [words])) (.step (aset_of (by simp [words])) ?_)
    exact chk_if (fun h => absurd h (by decide)) fun _ => .ret rfl

theorem isapRk24_chk (k : Ptr) (n : Nat) {x : CSrc} {y : Src} (h : SrcChk 16 x y) (o : State) :
    Chk (fun a s => a = [some s.x0, some s.x1, some s.x2, none, none])
      (isapRk D k (Arr.of (D.iv n)) x (Arr.new 5) 24) (Opt64.isapRk D k (D.iv n) y o 24) := by
  unfold isapRk Opt64.isapRk
  refine (chk_load64 _).bindEq fun k0 => (chk_load64 _).bindEq fun k1 => .step (areads_all (hiv n)) ?_
  refine Chk.bind (R := Eq) (chk_forN' (R := Eq) ?_ rfl) ?_
  · rintro i x _ _ hi rfl
    refine (chk_get h (by omega)).bind ?_
    rintro yb _ rfl
    exact .ret rfl
  · rintro s _ rfl
    refine (chk_get h (by omega)).bind ?_
    rintro yb _ rfl
    refine .step (aset_lt (by simp [Arr.new])) (.step (aset_lt (by simp [Arr.new])) ?_)
    refine chk_if (fun _ => ?_) fun h => absurd h (by decide)
    rw [aset_lt (by simp [Arr.new])]
    exact .ret rfl

theorem isapMac_chk (k npub ad : Ptr) (adlen : Nat) (c : Ptr) (clen : Nat) :
    Chk (fun a b => a = b ∧ b.length = 16) (isapMac D k npub ad adlen c clen) (Opt64.isapMac D k npub ad adlen c clen) := by
  unfold isapMac Opt64.isapMac
  refine Chk.bind (R := Eq) ?_ ?_
  · unfold macAbsorb Opt64.macAbsorb
    refine (chk_load64 _).bindEq fun n0 => (chk_load64 _).bindEq fun n1 => .step (areads_all (hiv 1)) ?_
    refine (absorbMac_chk _ _ _ ad adlen).bind ?_
    rintro s _ rfl
    exact absorbMac_chk _ _ _ _ _
  rintro s _ rfl
  refine .step (awrites_all rfl) ?_
  refine (isapRk16_chk hiv k 2 (y_src _ _) _).bind ?_
  rintro a s rfl
  exact .step (readState_of s) (.ret ⟨rfl, by simp [toLe64]⟩)

theorem isapEnc_chk (k npub m : Ptr) (mlen : Nat) (c : Ptr) :
    Chk Eq (isapEnc D k npub m mlen c) (Opt64.isapEnc D k npub m mlen c) := by
  unfold isapEnc Opt64.isapEnc
  refine (isapRk24_chk hiv k 3 (x := .ext npub) (y := .ext npub) rfl ⟨0, 0, 0, 0, 0⟩).bind ?_
  rintro a s rfl
  refine .step (x := s.x0) rfl (.step (x := s.x1) rfl (.step (x := s.x2) rfl ?_))
  refine (chk_load64 _).bindEq fun n0 => (chk_load64 _).bindEq fun n1 => ?_
  refine Chk.bind (R := Eq) (chk_whileRem (R := Eq) ?_ ?_ ?_ _ _ rfl) fun _ _ _ => .ret rfl
  · rintro i x _ rfl
    exact (chk_load64 _).bindEq fun _ => (chk_store64 _ _).bindEq fun _ => .ret rfl
  · rintro i x _ rfl
    exact (chk_load64 _).bindEq fun _ => (chk_store64 _ _).bindEq fun _ => .ret rfl
  · rintro i n x _ hn rfl
    refine Chk.bind (R := Eq) (chk_forN' (R := Eq) ?_ rfl) fun _ _ _ => .ret rfl
    rintro j _ _ _ hj rfl
    refine (chk_load8 _).bindEq fun d => ?_
    exact .step (aget_ofD 0 (by simp [toLe64]; omega)) (chk_store8 _ _)

theorem implChk : ImplChk (impl D) (Opt64.impl D) :=
  ⟨fun _ _ _ _ _ => isapEnc_chk hiv _ _ _ _ _, fun _ _ _ _ _ _ => isapMac_chk hiv _ _ _ _ _ _, rfl⟩

end Opt64.Chk

/-! ## avx_512 -/

namespace Avx.Chk
open Opt64.Chk

theorem macLane_chk (c : Ptr) (idx : Nat) (rem : Int) : Chk Eq (macLane c idx rem) (Avx.macLane c idx rem) := by
  unfold macLane Avx.macLane
  have := (lane_chk (init := Arr.of (List.replicate 8 0)) (by simp) (c + idx) (u64 rem)).bind (S := Eq)
    (h := fun lane => areads lane 0 8) (h' := fun l => Pure.pure l) ?_
  · rwa [chk_bind_pure] at this
  · rintro _ l ⟨rfl, hl⟩
    rw [areads_all hl]
    exact .ret rfl

theorem macInput_chk (d : DataModel) (c : Ptr) (mlen : Nat) (rem : Int) (idx : Nat) (remMac : Int) :
    Chk Eq (macInput d c mlen rem idx remMac) (Avx.macInput d c mlen rem idx remMac) := by
  unfold macInput Avx.macInput
  refine chk_if (fun _ => ?_) fun _ => .ret rfl
  exact (macLane_chk _ _ _).bind fun a b h => by cases h; exact .ret rfl

theorem storeLane_chk (c : Ptr) (x : BitVec 64) (n : Nat) (hn : n ≤ 8) :
    Chk Eq (storeLane c x n) (Avx.storeLane c x n) := by
  unfold storeLane Avx.storeLane
  refine chk_forN' (R := Eq) ?_ rfl
  rintro i _ _ _ hi rfl
  refine Chk.bind (R := Eq) ?_ ?_
  · have h : i < (toLe64 x).length := by simp [toLe64]; omega
    rw [aget_ofD 0 h, Src.get, if_pos h]
    exact .ret rfl
  · rintro d _ rfl
    exact chk_store8 _ _

theorem encbytes1_chk (rem : Int) (h : 0 ≤ rem) : Chk (fun a b => a = b ∧ b ≤ 8) (encbytes1 rem) (encbytes1 rem) := by
  unfold encbytes1
  refine chk_if (fun _ => .ret ⟨rfl, Nat.le_refl _⟩) fun hr => .ret ⟨rfl, ?_⟩
  have : ¬ rem ≥ 8 := of_decide_eq_false hr
  unfold u64
  omega

theorem encbytes2_chk (rem : Int) (n : Nat) : Chk (fun a b => a = b ∧ b ≤ 8) (encbytes2 rem n) (encbytes2 rem n) := by
  unfold encbytes2
  refine chk_if (fun _ => .ret ⟨rfl, Nat.le_refl _⟩) fun hr => chk_if (fun _ => .ret ⟨rfl, by omega⟩) fun _ => .ret ⟨rfl, ?_⟩
  have : ¬ u64 (rem - n) ≥ 8 := of_decide_eq_false hr
  omega

theorem loadMsg_chk (p : Ptr) (n : Nat) : Chk Eq (loadMsg p n) (loadMsg p n) := by
  unfold loadMsg
  refine chk_forN' (R := Eq) ?_ rfl
  rintro i x _ _ hi rfl
  exact (chk_load8 _).bindEq fun _ => .ret rfl

theorem body_chk (d : DataModel) (m c : Ptr) (mlen : Nat) (rem : Int) (h : 0 ≤ rem) (v : Loc) :
    Chk Eq (body d m c mlen rem v) (Avx.body d m c mlen rem v) := by
  unfold body Avx.body
  refine (encbytes1_chk rem h).bind ?_
  rintro n1 _ ⟨rfl, h1⟩
  refine (encbytes2_chk rem n1).bind ?_
  rintro n2 _ ⟨rfl, h2⟩
  refine (loadMsg_chk _ _).bindEq fun m1 => (loadMsg_chk _ _).bindEq fun m2 => ?_
  refine (macInput_chk _ _ _ _ _ _).bind ?_
  rintro ⟨w, i, r⟩ _ rfl
  refine (storeLane_chk _ _ _ h1).bind fun _ _ _ => (storeLane_chk _ _ _ h2).bind fun _ _ _ => .ret rfl

theorem doWhile_chk {f g : Int → Loc → CM Loc} (h : ∀ rem v, 0 ≤ rem → Chk Eq (f rem v) (g rem v)) (rem : Int) (hr : 0 ≤ rem)
    (v : Loc) : Chk Eq (doWhile f rem v) (doWhile g rem v) := by
  have key : ∀ (n : Nat) (rem : Int), rem.toNat = n → 0 ≤ rem → ∀ v, Chk Eq (doWhile f rem v) (doWhile g rem v) := by
    intro n
    induction n using Nat.strongRecOn with
    | _ n ih =>
      intro rem hn hr v
      rw [doWhile, doWhile]
      refine (h rem v hr).bind ?_
      rintro v _ rfl
      by_cases h16 : rem - 16 > 0
      · simp only [if_pos h16]
        exact (chk_branch true).bind fun _ _ _ => ih (rem - 16).toNat (by omega) _ rfl (by omega) _
      · simp only [if_neg h16]
        exact (chk_branch false).bind fun _ _ _ => .ret rfl
  exact key _ rem rfl hr v

theorem macRest_chk (d : DataModel) (c : Ptr) (rem : Int) (idx : Nat) (s : State) :
    Chk Eq (macRest d c rem idx s) (Avx.macRest d c rem idx s) := by
  have key : ∀ (n : Nat) (rem : Int), (rem + 8).toNat = n → ∀ idx s,
      Chk Eq (macRest d c rem idx s) (Avx.macRest d c rem idx s) := by
    intro n
    induction n using Nat.strongRecOn with
    | _ n ih =>
      intro rem hn idx s
      rw [macRest, Avx.macRest]
      by_cases h : rem ≥ 0
      · simp only [if_pos h]
        refine (chk_branch true).bind fun _ _ _ => (macLane_chk _ _ _).bind ?_
        rintro l _ rfl
        exact ih (rem - 8 + 8).toNat (by omega) _ rfl _ _
      · simp only [if_neg h]
        exact (chk_branch false).bind fun _ _ _ => .ret rfl
  exact key _ rem rfl idx s

theorem iv_length (n : Nat) : (Avx.iv n).length = 8 := rfl

theorem start_chk (d : DataModel) (k npub ad : Ptr) (adlen : Nat) :
    Chk Eq (start d k npub ad adlen) (Avx.start d k npub ad adlen) := by
  unfold start Avx.start
  refine (isapRk24_chk (D := cfg d) iv_length k 3 (x := .ext npub) (y := .ext npub) rfl ⟨0, 0, 0, 0, 0⟩).bind ?_
  rintro a s rfl
  refine (chk_load64 _).bindEq fun n0 => .step (aset_lt (by simp)) ?_
  refine (chk_load64 _).bindEq fun n1 => .step (aset_lt (by simp)) ?_
  refine (chk_load64 _).bindEq fun n0' => (chk_load64 _).bindEq fun n1' => .step (areads_all (iv_length 1)) ?_
  refine (absorbLanes_chk _ _ _ _ _).bind ?_
  rintro t _ rfl
  refine .step (x := ⟨s.x0, s.x1, s.x2, n0, n1⟩) rfl ?_
  exact Chk.pure rfl

theorem isapMacEnc_chk (d : DataModel) (k npub ad : Ptr) (adlen : Nat) (c m : Ptr) (mlen : Nat) (h : mlen < 2 ^ 63) :
    Chk Eq (isapMacEnc d k npub ad adlen c m mlen) (Avx.isapMacEnc d k npub ad adlen c m mlen) := by
  unfold isapMacEnc Avx.isapMacEnc
  refine (start_chk d k npub ad adlen).bind ?_
  rintro x _ rfl
  have h0 : 0 ≤ i64 mlen := by unfold i64; split <;> omega
  refine (doWhile_chk (fun rem v hr => body_chk d m c mlen rem hr v) _ h0 _).bind ?_
  rintro v _ rfl
  refine (macRest_chk d c _ _ _).bind ?_
  rintro s _ rfl
  refine .step (awrites_all rfl) ?_
  refine (isapRk16_chk (D := cfg d) iv_length k 2 (y_src _ _) _).bind ?_
  rintro a s rfl
  exact .step (readState_of s) (.ret rfl)

theorem encrypt_chk (d : DataModel) (c clen m : Ptr) (mlen : Nat) (ad : Ptr) (adlen : Nat) (nsec npub k : Ptr)
    (h : mlen < 2 ^ 63) :
    Chk Eq (encrypt d c clen m mlen ad adlen nsec npub k) (Avx.encrypt d c clen m mlen ad adlen nsec npub k) := by
  unfold encrypt Avx.encrypt
  refine (chk_storeLen _ _).bindEq fun _ => (isapMacEnc_chk d k npub ad adlen c m mlen h).bind ?_
  rintro t _ rfl
  exact (storeTag_chk _ _ _).bindEq fun _ => .ret rfl

theorem implChk (d : DataModel) : ImplChk (Opt64.Chk.impl (cfg d)) (Avx.impl d) := Opt64.Chk.implChk (D := cfg d) iv_length

end Avx.Chk

/-! ## opt_32 and opt_32_armv67m -/

namespace Opt32.Chk
open Opt64.Chk (areads_all)

/-- What is needed of the permutation. -/
structure PrimsChk (D E : Prims) : Prop where
  pL : ∀ s, Chk Eq (D.pL s) (E.pL s)
  pU : ∀ s, Chk Eq (D.pU s) (E.pU s)

theorem px_chk (round : State → BitVec 32 → BitVec 32 → State) (n : Nat) (hn : n ≤ 12) (s : State) :
    Chk Eq (px round n s) (Opt32.px round n s) := by
  unfold px Opt32.px
  refine chk_forN' (R := Eq) ?_ rfl
  rintro r s _ _ hr rfl
  have h : r < 12 := by omega
  exact .step (aget_ofD 0 h) (.step (aget_ofD 0 h) (.ret rfl))

theorem primsChk : PrimsChk prims Opt32.prims :=
  ⟨px_chk _ 12 (Nat.le_refl _), px_chk _ 12 (Nat.le_refl _)⟩

theorem primsArmChk : PrimsChk primsArm Opt32.primsArm :=
  ⟨px_chk _ 12 (Nat.le_refl _), fun _ => .ret rfl⟩

variable {D E : Prims} (Q : PrimsChk D E)

theorem iv_length (n : Nat) : (iv n).length = 8 := rfl

include Q

theorem absorbPart_chk (s : State) (src : Ptr) (len : Nat) (hl : len < 8) :
    Chk Eq (absorbPart D s src len) (Opt32.absorbPart E s src len) := by
  unfold absorbPart Opt32.absorbPart
  refine chk_if (fun _ => ?_) fun _ => .ret rfl
  refine Chk.bind (R := fun a b => a = Arr.of b ∧ b.length = 8) ?_ ?_
  · refine chk_forN' (R := fun (a : Arr Byte) (b : List Byte) => a = Arr.of b ∧ b.length = 8) ?_ ⟨rfl, rfl⟩
    rintro i _ b _ hi ⟨rfl, hb⟩
    refine (chk_load8 _).bindEq fun d => ?_
    rw [aset_of (by omega)]
    exact .ret ⟨rfl, by simpa using hb⟩
  · rintro _ b ⟨rfl, hb⟩
    refine .step (aset_of (by omega)) (.step (areads_all (by simpa using hb)) ?_)
    exact Q.pL _

theorem absorb_chk (s : State) (src : Ptr) (len : Nat) : Chk Eq (absorb D s src len) (Opt32.absorb E s src len) := by
  unfold absorb Opt32.absorb
  refine Chk.bind (R := Eq) (chk_whileGe (R := Eq) ?_ _ _ rfl) ?_
  · rintro i x _ rfl
    exact (chk_load64 _).bindEq fun _ => Q.pU _
  rintro s _ rfl
  refine (absorbPart_chk Q s _ _ (Nat.mod_lt _ (by decide))).bind ?_
  rintro s _ rfl
  unfold absorbPad
  exact chk_if (fun _ => Q.pL _) fun _ => .ret rfl

theorem isapRk_chk (k : Ptr) (n : Nat) {x : CSrc} {y : Src} (h : SrcChk 16 x y) (out : Arr (BitVec 32)) (outlen : Nat)
    (ho : out.length * 4 = outlen) (h6 : outlen = 16 ∨ outlen = 24) :
    Chk (fun a b => a = Arr.of b ∧ b.length * 4 = outlen) (isapRk D k (Arr.of (iv n)) x out outlen)
      (Opt32.isapRk E k (iv n) y outlen) := by
  unfold isapRk Opt32.isapRk
  refine (chk_load64 _).bindEq fun k0 => (chk_load64 _).bindEq fun k1 => .step (areads_all (iv_length n)) ?_
  refine (Q.pL _).bind ?_
  rintro s _ rfl
  refine Chk.bind (R := Eq) (chk_forN' (R := Eq) ?_ rfl) ?_
  · rintro i x _ _ hi rfl
    refine (chk_get h (by omega)).bind ?_
    rintro yb _ rfl
    exact Q.pU _
  rintro s _ rfl
  refine (chk_get h (by omega)).bind ?_
  rintro yb _ rfl
  refine (Q.pL _).bind ?_
  rintro s _ rfl
  refine .step (awrites_eq (by simp; omega)) ?_
  refine chk_if (fun h1 => ?_) fun h1 => ?_
  · have h1 : outlen > 16 := of_decide_eq_true h1
    have hl : out.length = 6 := by omega
    match out, hl with
    | [a, b, c, d, e, f], _ =>
      rw [awrites_eq (by simp)]
      exact .ret ⟨rfl, by simpa using ho⟩
  · have h1 : ¬ outlen > 16 := of_decide_eq_false h1
    have hl : out.length = 4 := by omega
    match out, hl with
    | [a, b, c, d], _ => exact .ret ⟨rfl, by simpa using ho⟩

theorem isapMac_chk (k npub ad : Ptr) (adlen : Nat) (c : Ptr) (clen : Nat) :
    Chk (fun a b => a = b ∧ b.length = 16) (isapMac D k npub ad adlen c clen) (Opt32.isapMac E k npub ad adlen c clen) := by
  unfold isapMac Opt32.isapMac
  refine Chk.bind (R := Eq) ?_ ?_
  · unfold macAbsorb Opt32.macAbsorb
    refine (chk_load64 _).bindEq fun n0 => (chk_load64 _).bindEq fun n1 => .step (areads_all (iv_length 1)) ?_
    refine (Q.pL _).bind ?_
    rintro s _ rfl
    refine (absorb_chk Q _ _ _).bind ?_
    rintro s _ rfl
    exact absorb_chk Q _ _ _
  rintro s _ rfl
  refine (isapRk_chk Q k 2 (y_src _ _) _ 16 rfl (.inl rfl)).bind ?_
  rintro _ b ⟨rfl, hb⟩
  refine .step (aget_ofD 0 (by omega)) (.step (aget_ofD 0 (by omega)) (.step (aget_ofD 0 (by omega))
    (.step (aget_ofD 0 (by omega)) ?_)))
  refine (Q.pL _).bind ?_
  rintro s _ rfl
  exact .ret ⟨rfl, by simp [toLe64]⟩

theorem isapEnc_chk (k npub m : Ptr) (mlen : Nat) (c : Ptr) :
    Chk Eq (isapEnc D k npub m mlen c) (Opt32.isapEnc E k npub m mlen c) := by
  unfold isapEnc Opt32.isapEnc
  refine (isapRk_chk Q k 3 (x := .ext npub) (y := .ext npub) rfl _ 24 rfl (.inr rfl)).bind ?_
  rintro _ b ⟨rfl, hb⟩
  refine .step (aget_ofD 0 (by omega)) (.step (aget_ofD 0 (by omega)) (.step (aget_ofD 0 (by omega))
    (.step (aget_ofD 0 (by omega)) (.step (aget_ofD 0 (by omega)) (.step (aget_ofD 0 (by omega)) ?_)))))
  refine (chk_load64 _).bindEq fun n0 => (chk_load64 _).bindEq fun n1 => ?_
  refine Chk.bind (R := Eq) (chk_whileGe (R := Eq) ?_ _ _ rfl) ?_
  · rintro i x _ rfl
    refine (Q.pU _).bind ?_
    rintro s _ rfl
    exact (chk_load64 _).bindEq fun d => (chk_store64 _ _).bindEq fun _ => .ret rfl
  · rintro s _ rfl
    have hl : mlen % 8 < 8 := Nat.mod_lt _ (by decide)
    unfold encTail Opt32.encTail
    refine chk_ifThen fun _ => (Q.pL _).bind ?_
    rintro s _ rfl
    refine chk_forN' (R := Eq) ?_ rfl
    rintro i x _ _ hi rfl
    refine (chk_load8 _).bindEq fun d => ?_
    exact .step (ix8_ok (n := i) rfl (by omega)) (chk_store8 _ _)

theorem implChk : ImplChk (impl D) (Opt32.impl E) :=
  ⟨fun _ _ _ _ _ => isapEnc_chk Q _ _ _ _ _, fun _ _ _ _ _ _ => isapMac_chk Q _ _ _ _ _ _, rfl⟩

end Opt32.Chk
end Model.A128
