import Verif.Proof.Steps
import Verif.Model.Targets
import Verif.Model.Hash
/-!
# The number of steps of the implementations
-/

namespace Model
open C

/-- The functions of `isap.c` make at most `12` steps per byte and `4000` steps in addition. -/
structure Work (I : Impl) : Prop where
  enc : ∀ k npub m mlen c, Steps (I.enc k npub m mlen c) (12 * mlen + 4000) Triv
  mac : ∀ k npub ad adlen c clen, Steps (I.mac k npub ad adlen c clen) (12 * (adlen + clen) + 4000) Triv

/-! ## Reference -/

namespace Ref
variable {G : Cfg}

/-- The permutation makes no steps. -/
def PermWork (G : Cfg) : Prop := ∀ x n, Steps (G.permute x n) 0 Triv

theorem steps_addBytes (x : List Byte) (d : Src) (offset length : Nat) : Steps (addBytes G x d offset length) (length * 2 + 1) Triv := by
  refine Steps.le ((steps_assert _).bind fun _ => (steps_assert _).bind fun _ => steps_for (k := 1) (fun i s => ?_) _ _ _) (by omega)
  exact (steps_get d i).map

theorem steps_overwriteBytes (x : List Byte) (d : Src) (offset length : Nat) :
    Steps (overwriteBytes G x d offset length) (length * 2 + 1) Triv := by
  refine Steps.le ((steps_assert _).bind fun _ => (steps_assert _).bind fun _ => steps_for (k := 1) (fun i s => ?_) _ _ _) (by omega)
  exact (steps_get d i).map

theorem steps_extractBytes (x : List Byte) (offset length : Nat) : Steps (extractBytes G x offset length) 0 Triv :=
  (steps_assert _).bind (n := 0) (m := 0) fun _ => (steps_assert _).map

theorem steps_refill (P : PermWork G) (r : Nat) (x : List Byte) (n : Nat) : Steps (refill G r x n) 1 Triv :=
  steps_branch (n := 0) (fun _ => (P _ _).map) fun _ => Steps.pure _

theorem steps_isapRk (P : PermWork G) (k : Ptr) (iv : List Byte) (y : Src) (outlen : Nat) : Steps (isapRk G k iv y 16 outlen) 900 Triv := by
  unfold isapRk
  refine Steps.le ((steps_addBytes _ _ _ _).bind fun _ => (steps_addBytes _ _ _ _).bind fun _ => (P _ _).bind fun _ =>
    (steps_for (k := 4) (fun i s => ?_) _ _ _).bind fun _ => (steps_get _ _).bind fun _ => (steps_addBytes _ _ _ _).bind fun _ =>
    (P _ _).bind fun _ => steps_extractBytes _ _ _) (by decide)
  exact Steps.le ((steps_get _ _).bind fun _ => (steps_addBytes _ _ _ _).bind fun _ => P _ _) (by decide)

theorem steps_absorbAd (P : PermWork G) (x : List Byte) (ad : Ptr) (adlen : Nat) : Steps (absorbAd G x ad adlen) (adlen * 6 + 1) Triv := by
  refine steps_for (k := 5) (fun i s => ?_) _ _ _
  exact Steps.le ((steps_refill P _ _ _).bind fun _ => (steps_load8 _).bind fun _ => (steps_addBytes _ _ _ _).map) (by decide)

theorem steps_absorbC (P : PermWork G) (x : List Byte) (c : Ptr) (clen : Nat) : Steps (absorbC G x c clen) (clen * 6 + 1) Triv := by
  refine steps_for (k := 5) (fun i s => ?_) _ _ _
  exact Steps.le ((steps_load8 _).bind fun _ => (steps_addBytes _ _ _ _).bind fun _ => steps_refill P _ _ _) (by decide)

theorem work (P : PermWork G) : Work (impl G) where
  enc k npub m mlen c := by
    refine Steps.le ((steps_isapRk P _ _ _ _).bind fun _ => (steps_overwriteBytes _ _ _ _).bind fun _ =>
      (steps_for (k := 3) (fun i s => ?_) _ _ _).bind fun _ => Steps.pure _) (by omega)
    exact Steps.le ((steps_refill P _ _ _).bind fun _ => (steps_extractBytes _ _ _).bind fun _ => (steps_load8 _).bind fun _ =>
      (steps_store8 _ _).map) (by decide)
  mac k npub ad adlen c clen := by
    refine Steps.le ((steps_addBytes _ _ _ _).bind fun _ => (steps_addBytes _ _ _ _).bind fun _ => (P _ _).bind fun _ =>
      (steps_absorbAd P _ _ _).bind fun _ => (steps_refill P _ _ _).bind fun _ => (steps_addBytes _ _ _ _).bind fun _ =>
      (P _ _).bind fun _ => (steps_addBytes _ _ _ _).bind fun _ => (steps_absorbC P _ _ _).bind fun _ =>
      (steps_addBytes _ _ _ _).bind fun _ => (P _ _).bind fun _ => (steps_extractBytes _ _ _).bind fun _ =>
      (steps_isapRk P _ _ _ _).bind fun _ => (steps_overwriteBytes _ _ _ _).bind fun _ => (P _ _).bind fun _ =>
      steps_extractBytes _ _ _) (by omega)

theorem permWork (p : ParamSet) : PermWork p.cfg := by
  have h1 : ∀ x n, Steps (AsconRef.permute x n) 0 Triv := fun x n => (steps_assert _).map
  have h2 : ∀ x n, Steps (KeccakRef.permute x n) 0 Triv := fun x n => Steps.pure _
  cases p
  · exact h1
  · exact h1
  · exact h2
  · exact h2

end Ref

/-! ## Optimized ISAP-A-128a -/

namespace Opt
variable {D : Prims}

/-- The permutations make at most 12 steps. -/
structure PermWork (D : Prims) : Prop where
  pH : ∀ s, Steps (D.pH s) 12 Triv
  pB : ∀ s, Steps (D.pB s) 12 Triv
  pE : ∀ s, Steps (D.pE s) 12 Triv
  pK : ∀ s, Steps (D.pK s) 12 Triv

variable (P : PermWork D)
include P

theorem steps_absorbLanes (s : State) (src : Ptr) (len : Nat) : Steps (absorbLanes D s src len) (len * 2 + 29) Triv := by
  unfold absorbLanes absorbTail
  refine Steps.le ((steps_whileGe _ (k := 13) (fun i s => ?_) _ _ _).bind fun _ =>
    steps_branch (n := len % 8 * 2 + 13) (fun _ => ?_) fun _ => (P.pH _).le (by omega)) (by omega)
  · exact (steps_load64 _).bind fun _ => P.pH _
  · exact Steps.le ((steps_for (k := 1) (fun i s => (steps_load8 _).map) _ _ _).bind fun _ => P.pH _) (by omega)

theorem steps_isapRk (k : Ptr) (iv : List Byte) (y : Src) (out : State) (outlen : Nat) :
    Steps (isapRk D k iv y out outlen) 1700 Triv := by
  unfold isapRk rkOut
  refine Steps.le ((steps_load64 _).bind fun _ => (steps_load64 _).bind fun _ => (P.pK _).bind fun _ =>
    (steps_for (k := 98) (fun i s => ?_) _ _ _).bind fun _ => (P.pK _).bind fun _ =>
    steps_branch (n := 0) (fun _ => Steps.pure _) fun _ => Steps.pure _) (by decide)
  unfold rkStep
  exact Steps.le ((steps_get _ _).bind fun _ => (P.pB _).bind fun _ => (P.pB _).bind fun _ => (P.pB _).bind fun _ =>
    (P.pB _).bind fun _ => (P.pB _).bind fun _ => (P.pB _).bind fun _ => (P.pB _).bind fun _ =>
    steps_branch (n := 12) (fun _ => P.pB _) fun _ => (Steps.pure _).le (by decide)) (by decide)

theorem steps_macAbsorb (npub ad : Ptr) (adlen : Nat) (c : Ptr) (clen : Nat) :
    Steps (macAbsorb D npub ad adlen c clen) (2 * (adlen + clen) + 72) Triv :=
  Steps.le ((steps_load64 _).bind fun _ => (steps_load64 _).bind fun _ => (P.pH _).bind fun _ =>
    (steps_absorbLanes P _ _ _).bind fun _ => steps_absorbLanes P _ _ _) (by omega)

theorem steps_isapMac (k npub ad : Ptr) (adlen : Nat) (c : Ptr) (clen : Nat) :
    Steps (isapMac D k npub ad adlen c clen) (2 * (adlen + clen) + 1800) Triv :=
  Steps.le ((steps_macAbsorb P _ _ _ _ _).bind fun _ => (steps_isapRk P _ _ _ _ _).bind fun _ => (P.pH _).map) (by omega)

theorem steps_isapEnc (k npub m : Ptr) (mlen : Nat) (c : Ptr) : Steps (isapEnc D k npub m mlen c) (4 * mlen + 1800) Triv := by
  unfold isapEnc encTail
  refine Steps.le ((steps_isapRk P _ _ _ _ _).bind fun _ => (steps_load64 _).bind fun _ => (steps_load64 _).bind fun _ =>
    (steps_whileGe _ (k := 14) (fun i s => ?_) _ _ _).bind fun _ => steps_ifThen (n := mlen % 8 * 3 + 13) fun _ => ?_) (by omega)
  · exact (P.pE _).bind fun _ => (steps_load64 _).bind fun _ => (steps_store64 _ _).map
  · exact Steps.le ((P.pE _).bind fun _ => steps_for (k := 2) (fun i _ => (steps_load8 _).bind fun _ => steps_store8 _ _) _ _ _) (by omega)

theorem work : Work (impl D) where
  enc k npub m mlen c := (steps_isapEnc P k npub m mlen c).le (by omega)
  mac k npub ad adlen c clen := (steps_isapMac P k npub ad adlen c clen).le (by omega)

theorem steps_hash (out inp : Ptr) (inlen : Nat) : Steps (cryptoHash D out inp inlen) (2 * inlen + 110) Triv := by
  unfold cryptoHash
  refine Steps.le ((P.pH _).bind fun _ => (steps_absorbLanes P _ _ _).bind fun _ => (steps_for (k := 14) (fun i s => ?_) _ _ _).map)
    (by omega)
  exact Steps.le ((steps_store64 _ _).bind fun _ => steps_branch (n := 12) (fun _ => P.pH _) fun _ => (Steps.pure _).le (by decide))
    (by decide)

omit P

theorem PermWork.unrolled {κ : Type} (round : State → κ → State) (c12 c6 c1 : List κ) (f g h : BitVec 64 → BitVec 64) :
    PermWork (Opt.unrolled round c12 c6 c1 f g h) :=
  ⟨fun _ => trivial, fun _ => trivial, fun _ => trivial, fun _ => trivial⟩

theorem PermWork.via {r : Nat → State → CM State} (hr : ∀ n s, Steps (r n s) 12 Triv) (f g h : BitVec 64 → BitVec 64) :
    PermWork (viaProunds r f g h) :=
  ⟨hr 12, hr 1, hr 6, hr 12⟩

theorem steps_switch {κ : Type} (round : State → κ → State) (c12 c6 c1 : List κ) (n : Nat) (s : State) :
    Steps (switchRounds round c12 c6 c1 n s) 12 Triv :=
  Steps.le (steps_branch (n := 1) (fun _ => (Steps.pure _).le (by decide)) fun _ =>
    steps_branch (n := 0) (fun _ => Steps.pure _) fun _ => Steps.pure _) (by decide)

theorem steps_switch7 {κ : Type} (round : State → κ → State) (c12 c6 c1 : List κ) (n : Nat) (s : State) :
    Steps (switchRounds7 round c12 c6 c1 n s) 12 Triv :=
  Steps.le (steps_branch (n := 2) (fun _ => (Steps.pure _).le (by decide)) fun _ =>
    steps_branch (n := 1) (fun _ => (Steps.pure _).le (by decide)) fun _ =>
    steps_branch (n := 0) (fun _ => Steps.pure _) fun _ => Steps.pure _) (by decide)

theorem PermWork.tiny (round : State → Byte → State) (f g h : BitVec 64 → BitVec 64) : PermWork (viaProunds (tinyRounds round) f g h) where
  pH s := by repeat' first | exact trivial | refine ⟨by decide, ?_⟩
  pB s := by repeat' first | exact trivial | refine ⟨by decide, ?_⟩
  pE s := by repeat' first | exact trivial | refine ⟨by decide, ?_⟩
  pK s := by repeat' first | exact trivial | refine ⟨by decide, ?_⟩

end Opt

/-! ## Optimized ISAP-A-128 -/

namespace A128.Opt64
variable {D : Cfg}

theorem steps_padByte (src : Ptr) (rem i : Nat) (lane : List Byte) : Steps (padByte src rem i lane) 2 Triv :=
  steps_branch (n := 1) (fun _ => (steps_load8 _).map) fun _ => steps_branch (n := 0) (fun _ => Steps.pure _) fun _ => Steps.pure _

theorem steps_absorbLanes (pH : Opt.State → Opt.State) (d : DataModel) (s : Opt.State) (src : Ptr) (len : Nat) :
    Steps (absorbLanes pH d s src len) (len + 30) Triv := by
  have h0 : len % d.ulong ≤ len := Nat.mod_le ..
  unfold absorbLanes
  refine Steps.le (steps_whileRem _ (k := 1) (l := 25) (fun i s => (steps_load64 _).map)
    (fun i s => ((steps_load64 _).map).le (by decide)) (fun i m s hm => ?_) _ _ _) (by omega)
  exact (steps_for (k := 2) (fun j t => steps_padByte ..) _ _ _).map

theorem steps_absorbMac (pH : Opt.State → Opt.State) (d : DataModel) (s : Opt.State) (src : Ptr) (len : Nat) :
    Steps (absorbMac pH d s src len) (len + 30) Triv :=
  (steps_absorbLanes pH d s src len).map

theorem steps_isapRk (k : Ptr) (iv : List Byte) (y : Src) (out : Opt.State) (outlen : Nat) : Steps (isapRk D k iv y out outlen) 300 Triv := by
  unfold isapRk
  exact Steps.le ((steps_load64 _).bind fun _ => (steps_load64 _).bind fun _ =>
    (steps_for (k := 1) (fun i s => (steps_get _ _).map) _ _ _).bind fun _ => (steps_get _ _).bind fun _ =>
    steps_branch (n := 0) (fun _ => Steps.pure _) fun _ => Steps.pure _) (by decide)

theorem work (D : Cfg) : Work (impl D) where
  enc k npub m mlen c := by
    refine Steps.le ((steps_isapRk _ _ _ _ _).bind fun _ => (steps_load64 _).bind fun _ => (steps_load64 _).bind fun _ =>
      (steps_whileRem _ (k := 2) (l := 22) (fun i s => ?_) (fun i s => ?_) (fun i r s hr => ?_) _ _ _).bind fun _ => Steps.pure _)
      (by omega)
    · exact (steps_load64 _).bind fun _ => (steps_store64 _ _).map
    · exact Steps.le ((steps_load64 _).bind fun _ => (steps_store64 _ _).map) (by decide)
    · exact Steps.le ((steps_for (k := 2) (fun j _ => (steps_load8 _).bind fun _ => steps_store8 _ _) _ _ _).map) (by omega)
  mac k npub ad adlen c clen :=
    Steps.le (((steps_load64 _).bind fun _ => (steps_load64 _).bind fun _ => (steps_absorbMac _ _ _ _ _).bind fun _ =>
      steps_absorbMac _ _ _ _ _).bind fun _ => (steps_isapRk _ _ _ _ _).map) (by omega)

end A128.Opt64

namespace A128.Avx

theorem u64_small {i : Int} (h0 : 0 ≤ i) (h1 : i < 8) : u64 i ≤ 8 := by
  unfold u64; omega

theorem steps_encbytes1 {rem : Int} (h : 0 ≤ rem) : Steps (encbytes1 rem) 1 (· ≤ 8) := by
  refine steps_branch (n := 0) (fun _ => Steps.pureQ (Nat.le_refl 8)) fun hb => Steps.pureQ ?_
  exact u64_small h (by simpa using hb)

theorem steps_encbytes2 (rem : Int) (n1 : Nat) : Steps (encbytes2 rem n1) 2 (· ≤ 8) := by
  refine steps_branch (n := 1) (Q := (· ≤ 8)) (fun _ => Nat.le_refl 8) fun hb => ?_
  refine steps_branch (n := 0) (fun _ => Steps.pureQ (Nat.zero_le 8)) fun _ => Steps.pureQ ?_
  have : ¬ u64 (rem - n1) ≥ 8 := by simpa using hb
  omega

theorem steps_loadMsg (p : Ptr) (n : Nat) (h : n ≤ 8) : Steps (loadMsg p n) 17 Triv :=
  Steps.le (steps_for (k := 1) (fun _ _ => (steps_load8 _).map) _ _ _) (by omega)

theorem steps_storeLane (c : Ptr) (x : BitVec 64) (n : Nat) (h : n ≤ 8) : Steps (storeLane c x n) 25 Triv :=
  Steps.le (steps_for (k := 2) (fun _ _ => (steps_get _ _).bind fun _ => steps_store8 _ _) _ _ _) (by omega)

theorem steps_macLane (c : Ptr) (idx : Nat) (rem : Int) : Steps (macLane c idx rem) 25 Triv :=
  steps_for (k := 2) (fun _ _ => Opt64.steps_padByte ..) _ _ _

theorem steps_macInput (d : DataModel) (c : Ptr) (mlen : Nat) (rem : Int) (idx : Nat) (r : Int) :
    Steps (macInput d c mlen rem idx r) 26 fun x => x.2.2 ≤ r := by
  refine steps_branch (n := 25) (fun _ => (steps_macLane _ _ _).bindQ (m := 0) fun _ _ => Steps.pureQ ?_) fun _ =>
    (Steps.pureQ ?_).le (Nat.zero_le _)
  · show r - 8 ≤ r
    omega
  · exact Int.le_refl r

theorem steps_body (d : DataModel) (m c : Ptr) (mlen : Nat) {rem : Int} (h : 0 ≤ rem) (v : Loc) :
    Steps (body d m c mlen rem v) 113 fun w => w.remMac ≤ v.remMac := by
  unfold body
  refine Steps.le ((steps_encbytes1 h).bindQ fun n1 h1 => (steps_encbytes2 _ _).bindQ fun n2 h2 =>
    (steps_loadMsg _ _ h1).bind fun _ => (steps_loadMsg _ _ h2).bind fun _ => (steps_macInput _ _ _ _ _ _).bindQ fun x hx =>
    (steps_storeLane _ _ _ h1).bind fun _ => (steps_storeLane _ _ _ h2).bind fun _ => Steps.pureQ ?_) (by decide)
  exact hx

theorem steps_doWhile {σ : Type} {f : Int → σ → CM σ} {k : Nat} {I : σ → Prop} (h : ∀ rem v, 0 ≤ rem → I v → Steps (f rem v) k I)
    (n : Nat) (v : σ) (hv : I v) : Steps (doWhile f n v) ((n / 16 + 1) * (k + 1)) I := by
  induction n using Nat.strongRecOn generalizing v with
  | _ n ih =>
    rw [doWhile]
    refine ((h n v (Int.natCast_nonneg n) hv).bindQ (m := n / 16 * (k + 1) + 1) fun w hw => ?_).le
      (by rw [Nat.succ_mul]; omega)
    split
    · have e : (n : Int) - 16 = ((n - 16 : Nat) : Int) := by omega
      refine ⟨Nat.succ_pos _, ?_⟩
      show Steps (doWhile f ((n : Int) - 16) w) _ _
      rw [e]
      have e2 : (n - 16) / 16 + 1 = n / 16 := by omega
      have := ih (n - 16) (by omega) w hw
      rw [e2] at this
      exact this
    · exact ⟨Nat.succ_pos _, hw⟩

theorem steps_macRest (d : DataModel) (c : Ptr) (n : Nat) (rem : Int) (h : rem < 8 * n) (idx : Nat) (s : Opt.State) :
    Steps (macRest d c rem idx s) (n * 26 + 1) Triv := by
  induction n generalizing rem idx s with
  | zero =>
    rw [macRest, if_neg (by omega)]
    exact ⟨Nat.succ_pos _, trivial⟩
  | succ n ih =>
    rw [macRest]
    split
    · refine ⟨Nat.succ_pos _, ?_⟩
      exact ((steps_macLane c idx rem).bind fun l => ih (rem - 8) (by omega) _ _).le (by omega)
    · exact ⟨Nat.succ_pos _, trivial⟩

theorem steps_start (d : DataModel) (k npub ad : Ptr) (adlen : Nat) : Steps (start d k npub ad adlen) (adlen + 340) Triv :=
  Steps.le ((Opt64.steps_isapRk _ _ _ _ _).bind fun _ => (steps_load64 _).bind fun _ => (steps_load64 _).bind fun _ =>
    (steps_load64 _).bind fun _ => (steps_load64 _).bind fun _ => (Opt64.steps_absorbLanes _ _ _ _ _).map) (by omega)

theorem steps_isapMacEnc (d : DataModel) (k npub ad : Ptr) (adlen : Nat) (c m : Ptr) {mlen : Nat} (h : mlen < 2 ^ 63) :
    Steps (isapMacEnc d k npub ad adlen c m mlen) (12 * (adlen + mlen) + 4000) Triv := by
  have hi : i64 mlen = (mlen : Int) := if_pos h
  unfold isapMacEnc
  rw [hi]
  refine Steps.le ((steps_start _ _ _ _ _).bind fun x =>
    (steps_doWhile (k := 113) (I := fun v : Loc => v.remMac ≤ mlen)
      (fun rem v hr hv => (steps_body d m c mlen hr v).mono (Nat.le_refl _) fun w hw => Int.le_trans hw hv) mlen _
      (Int.le_refl _)).bindQ fun v hv =>
    (steps_macRest d c (mlen / 8 + 1) _ (by omega) _ _).bind fun s => (Opt64.steps_isapRk _ _ _ _ _).map) (by omega)

end A128.Avx

namespace A128.Opt32
variable {D : Prims}

/-- The permutations make at most 13 steps. -/
structure PermWork (D : Prims) : Prop where
  pL : ∀ s, Steps (D.pL s) 13 Triv
  pU : ∀ s, Steps (D.pU s) 13 Triv

variable (P : PermWork D)
include P

theorem steps_absorb (s : Opt.State) (src : Ptr) (len : Nat) : Steps (absorb D s src len) (2 * len + 60) Triv := by
  unfold absorb absorbPart absorbPad
  refine Steps.le ((steps_whileGe _ (k := 14) (fun i s => (steps_load64 _).bind fun _ => P.pU _) _ _ _).bind fun _ =>
    (steps_branch (n := len % 8 * 2 + 14) (fun _ => ?_) fun _ => (Steps.pure _).le (Nat.zero_le _)).bind fun _ =>
    steps_branch (n := 13) (fun _ => P.pL _) fun _ => (Steps.pure _).le (by decide)) (by omega)
  exact ((steps_for (k := 1) (fun i t => (steps_load8 _).map) _ _ _).bind fun _ => P.pL _).le (by omega)

theorem steps_isapRk (k : Ptr) (iv : List Byte) (y : Src) (outlen : Nat) : Steps (isapRk D k iv y outlen) 2000 Triv := by
  unfold isapRk
  exact Steps.le ((steps_load64 _).bind fun _ => (steps_load64 _).bind fun _ => (P.pL _).bind fun _ =>
    (steps_for (k := 14) (fun i s => (steps_get _ _).bind fun _ => P.pU _) _ _ _).bind fun _ => (steps_get _ _).bind fun _ =>
    (P.pL _).bind fun _ => steps_branch (n := 0) (fun _ => Steps.pure _) fun _ => Steps.pure _) (by decide)

theorem work : Work (impl D) where
  enc k npub m mlen c := by
    refine Steps.le ((steps_isapRk P _ _ _ _).bind fun _ => (steps_load64 _).bind fun _ => (steps_load64 _).bind fun _ =>
      (steps_whileGe _ (k := 15) (fun i s => ?_) _ _ _).bind fun _ => steps_ifThen (n := mlen % 8 * 3 + 14) fun _ => ?_) (by omega)
    · exact (P.pU _).bind fun _ => (steps_load64 _).bind fun _ => (steps_store64 _ _).map
    · exact Steps.le ((P.pL _).bind fun _ => steps_for (k := 2) (fun i _ => (steps_load8 _).bind fun _ => steps_store8 _ _) _ _ _)
        (by omega)
  mac k npub ad adlen c clen :=
    Steps.le (((steps_load64 _).bind fun _ => (steps_load64 _).bind fun _ => (P.pL _).bind fun _ => (steps_absorb P _ _ _).bind fun _ =>
      steps_absorb P _ _ _).bind fun _ => (steps_isapRk P _ _ _ _).bind fun _ => (P.pL _).map) (by omega)

omit P

theorem steps_px (round : Opt.State → BitVec 32 → BitVec 32 → Opt.State) (s : Opt.State) : Steps (px round 12 s) 13 Triv :=
  steps_for (k := 0) (fun _ _ => Steps.pure _) _ _ _

theorem permWork : PermWork prims := ⟨steps_px _, steps_px _⟩
theorem permWorkArm : PermWork primsArm := ⟨steps_px _, fun _ => trivial⟩

end A128.Opt32

/-! ## Optimized ISAP-K-128(a) -/

namespace K128
variable {D : Prims}

theorem steps_loads (al w : Nat) (n : Nat) (p : Ptr) : Steps (loads al w n p) n Triv := by
  induction n generalizing p with
  | zero => exact trivial
  | succ n ih => exact ((steps_load al w p).triv.bind fun _ => (ih _).map).le (by omega)

/-- A block of 18 bytes is read by at most three instructions. -/
structure LoadWork (D : Prims) : Prop where
  blk : ∀ p, Steps (D.ldBlk p) 3 Triv
  msg : ∀ p, Steps (D.ldMsg p) 3 Triv

theorem steps_padByte (src : Ptr) (rem i : Nat) (S : List Byte) : Steps (padByte src rem i S) 2 Triv :=
  steps_branch (n := 1) (fun _ => (steps_load8 _).map) fun _ => steps_branch (n := 0) (fun _ => Steps.pure _) fun _ => Steps.pure _

theorem steps_isapRk (k : Ptr) (n : Nat) (y : Src) (outlen : Nat) : Steps (isapRk D k n y outlen) 300 Triv := by
  unfold isapRk
  exact Steps.le ((steps_loads _ _ _ _).bind fun _ => (steps_for (k := 1) (fun i s => (steps_get _ _).map) _ _ _).bind fun _ =>
    (steps_get _ _).bind fun _ => steps_branch (n := 0) (fun _ => Steps.pure _) fun _ => Steps.pure _) (by decide)

variable (L : LoadWork D)
include L

theorem steps_absorbMac (S : List Byte) (src : Ptr) (len : Nat) : Steps (absorbMac D S src len) (len + 60) Triv := by
  unfold absorbMac
  refine Steps.le (steps_whileRem _ (k := 3) (l := 55) (fun i s => (L.blk _).map) (fun i s => ((L.blk _).map).le (by decide))
    (fun i r s _ => (steps_for (k := 2) (fun j t => steps_padByte ..) _ _ _).map) _ _ _) (by omega)

theorem work : Work (impl D) where
  enc k npub m mlen c := by
    refine Steps.le ((steps_isapRk _ _ _ _).bind fun _ => (steps_loads _ _ _ _).bind fun _ =>
      (steps_whileRem _ (k := 4) (l := 52) (fun i s => ?_) (fun i s => ?_) (fun i r s hr => ?_) _ _ _).bind fun _ => Steps.pure _)
      (by omega)
    · exact Steps.map ((L.msg _).bind fun _ => steps_store _ _ _)
    · exact Steps.le (Steps.map ((L.msg _).bind fun _ => steps_store _ _ _)) (by decide)
    · exact Steps.le ((steps_for (k := 2) (fun j _ => (steps_load8 _).bind fun _ => steps_store8 _ _) _ _ _).map) (by omega)
  mac k npub ad adlen c clen :=
    Steps.le ((steps_loads _ _ _ _).bind fun _ => (steps_absorbMac L _ _ _).bind fun _ => (steps_absorbMac L _ _ _).bind fun _ =>
      (steps_isapRk _ _ _ _).map) (by omega)

omit L

theorem Opt64.steps_ldBlk (p : Ptr) : Steps (Opt64.ldBlk p) 3 Triv :=
  (steps_load _ _ _).triv.bind (m := 2) fun _ => (steps_load _ _ _).triv.bind (m := 1) fun _ => (steps_load _ _ _).triv.map

theorem Opt64.steps_ldMsg (p : Ptr) : Steps (Opt64.ldMsg p) 3 Triv :=
  (steps_load _ _ _).triv.bind (m := 2) fun _ => (steps_load _ _ _).triv.bind (m := 1) fun _ => (steps_load _ _ _).triv.map

theorem loadWork64a : LoadWork Opt64.primsK128a := ⟨Opt64.steps_ldBlk, Opt64.steps_ldMsg⟩
theorem loadWork64 : LoadWork Opt64.primsK128 := ⟨Opt64.steps_ldBlk, Opt64.steps_ldMsg⟩
theorem loadWorkAvx (j : Avx.Junk) : LoadWork (Avx.prims j) :=
  ⟨fun p => (steps_load 1 18 p).triv.le (by decide), fun p => (steps_load 1 18 p).triv.le (by decide)⟩

namespace Arm
variable {D : Prims}

/-- The permutations make at most 12 steps. -/
structure PermWork (D : Prims) : Prop where
  sH : ∀ S, Steps (D.perm D.sH S) 12 Triv
  sB : ∀ S, Steps (D.perm D.sB S) 12 Triv
  sE : ∀ S, Steps (D.perm D.sE S) 12 Triv
  sK : ∀ S, Steps (D.perm D.sK S) 12 Triv

variable (P : PermWork D)
include P

omit P in
theorem steps_loadsDown (n : Nat) (p : Ptr) : Steps (loadsDown n p) (n * 2 + 1) Triv :=
  steps_for (k := 1) (fun _ _ => (steps_load8 _).map) _ _ _

omit P in
theorem steps_initState (p : Ptr) (n : Nat) : Steps (initState D p n) 33 Triv := (steps_loadsDown 16 p).map

theorem steps_isapRk (k : Ptr) (n : Nat) (y : Src) (outlen : Nat) : Steps (isapRk D k n y outlen) 1900 Triv := by
  unfold isapRk
  exact Steps.le ((steps_initState _ _).bind fun _ => (P.sK _).bind fun _ =>
    (steps_for (k := 13) (fun i s => (steps_get _ _).bind fun _ => P.sB _) _ _ _).bind fun _ => (steps_get _ _).bind fun _ =>
    (P.sK _).map) (by decide)

theorem steps_absorb (S : List Byte) (src : Ptr) (len : Nat) : Steps (absorb D S src len) (2 * len + 60) Triv := by
  unfold absorb
  exact Steps.le ((steps_whileGe _ (k := 21) (fun i s => (steps_loads _ _ _ _).bind fun _ => P.sH _) _ _ _).bind fun _ =>
    (steps_for (k := 1) (fun i s => (steps_load8 _).map) _ _ _).bind fun _ => P.sH _) (by omega)

theorem work : Work (impl D) where
  enc k npub m mlen c := by
    have h0 : mlen % 2 ^ 32 ≤ mlen := Nat.mod_le ..
    refine Steps.le ((steps_isapRk P _ _ _ _).bind fun _ => (steps_loadsDown _ _).bind fun _ =>
      (steps_whileGe _ (k := 40) (fun i s => ?_) _ _ _).bind fun _ =>
      steps_ifThen (n := mlen % 2 ^ 32 % 18 * 3 + 13) fun _ => ?_) (by omega)
    · exact (P.sE _).bind fun _ => Steps.map (Steps.map (steps_for (k := 2) (fun i _ => (steps_load _ _ _).triv.bind fun _ =>
        steps_store _ _ _) _ _ _))
    · exact Steps.le ((P.sE _).bind fun _ => (steps_for (k := 2) (fun i _ => (steps_load8 _).bind fun _ => steps_store8 _ _) _ _ _).map)
        (by omega)
  mac k npub ad adlen c clen := by
    have h1 : adlen % 2 ^ 32 ≤ adlen := Nat.mod_le ..
    have h2 : clen % 2 ^ 32 ≤ clen := Nat.mod_le ..
    exact Steps.le ((steps_initState _ _).bind fun _ => (P.sH _).bind fun _ => (steps_absorb P _ _ _).bind fun _ =>
      (steps_absorb P _ _ _).bind fun _ => (steps_isapRk P _ _ _ _).bind fun _ => (P.sH _).map) (by omega)

omit P

theorem V7.steps_last {fuel i : Nat} {B : Lanes} {q : V7.Carry} (h : V7.roundConstants.getD (i + 1) 0 = 0) :
    Steps (V7.roundOdd (fuel + 1) i B q) 1 Triv := by
  unfold V7.roundOdd
  refine ⟨by decide, ?_⟩
  rw [h]
  exact trivial

theorem V7.steps_more {fuel i n : Nat} {B : Lanes} {q : V7.Carry} (h : ∀ A p, Steps (V7.roundOdd fuel (i + 2) A p) n Triv) :
    Steps (V7.roundOdd (fuel + 1) i B q) (n + 1) Triv := by
  unfold V7.roundOdd
  exact steps_branch (fun _ => h _ _) fun _ => (Steps.pure _).le (Nat.zero_le _)

theorem V6.steps_last {fuel i : Nat} {B : Lanes} (h : V6.roundConstants.getD (i + 1) 0 = 0x00FF) :
    Steps (V6.roundOdd (fuel + 1) i B) 1 Triv := by
  unfold V6.roundOdd
  refine ⟨by decide, ?_⟩
  rw [h]
  exact trivial

theorem V6.steps_more {fuel i n : Nat} {B : Lanes} (h : ∀ A, Steps (V6.roundOdd fuel (i + 2) A) n Triv) :
    Steps (V6.roundOdd (fuel + 1) i B) (n + 1) Triv := by
  unfold V6.roundOdd
  exact steps_branch (fun _ => (Steps.pure _).le (Nat.zero_le _)) fun _ => h _

/-- Rounds in pairs, up to the end of the table. -/
theorem V7.steps_roundOdd (j : Nat) : ∀ (fuel i : Nat) (B : Lanes) (q : V7.Carry), i + 1 + 2 * j = 20 →
    Steps (V7.roundOdd (fuel + (j + 1)) i B q) (j + 1) Triv := by
  induction j with
  | zero =>
    intro fuel i B q h
    have e : i = 19 := by omega
    subst e
    exact V7.steps_last (by decide)
  | succ j ih => exact fun fuel i B q h => V7.steps_more fun A p => ih fuel (i + 2) A p (by omega)

theorem V6.steps_roundOdd (j : Nat) : ∀ (fuel i : Nat) (B : Lanes), i + 1 + 2 * j = 20 →
    Steps (V6.roundOdd (fuel + (j + 1)) i B) (j + 1) Triv := by
  induction j with
  | zero =>
    intro fuel i B h
    have e : i = 19 := by omega
    subst e
    exact V6.steps_last (by decide)
  | succ j ih => exact fun fuel i B h => V6.steps_more fun A => ih fuel (i + 2) A (by omega)

theorem V7.steps_permute {n : Nat} (h0 : 1 ≤ n) (h1 : n ≤ 20) (A : Lanes) : Steps (V7.permute n A) 12 Triv := by
  refine steps_branch (n := 11) (fun hb => ?_) fun hb => ?_
  · have := V7.steps_roundOdd ((n - 2) / 2) (99 - (n - 2) / 2) (20 - n + 1)
    rw [show 99 - (n - 2) / 2 + ((n - 2) / 2 + 1) = 100 by omega] at this
    simp only [decide_eq_true_eq] at hb
    exact (this _ _ (by omega)).le (by omega)
  · have := V7.steps_roundOdd ((n - 1) / 2) (99 - (n - 1) / 2) (20 - n)
    rw [show 99 - (n - 1) / 2 + ((n - 1) / 2 + 1) = 100 by omega] at this
    simp only [decide_eq_false_iff_not] at hb
    exact (this _ _ (by omega)).le (by omega)

theorem V6.steps_permute {n : Nat} (h0 : 1 ≤ n) (h1 : n ≤ 20) (A : Lanes) : Steps (V6.permute n A) 12 Triv := by
  refine steps_branch (n := 11) (fun hb => ?_) fun hb => ?_
  · have := V6.steps_roundOdd ((n - 2) / 2) (99 - (n - 2) / 2) (20 - n + 1)
    rw [show 99 - (n - 2) / 2 + ((n - 2) / 2 + 1) = 100 by omega] at this
    simp only [decide_eq_true_eq] at hb
    exact (this _ (by omega)).le (by omega)
  · have := V6.steps_roundOdd ((n - 1) / 2) (99 - (n - 1) / 2) (20 - n)
    rw [show 99 - (n - 1) / 2 + ((n - 1) / 2 + 1) = 100 by omega] at this
    simp only [decide_eq_false_iff_not] at hb
    exact (this _ (by omega)).le (by omega)

theorem permWorkAV7 : PermWork primsK128aV7 :=
  ⟨fun _ => (V7.steps_permute (by decide) (by decide) _).map, fun _ => (V7.steps_permute (by decide) (by decide) _).map,
   fun _ => (V7.steps_permute (by decide) (by decide) _).map, fun _ => (V7.steps_permute (by decide) (by decide) _).map⟩
theorem permWorkAV6 : PermWork primsK128aV6 :=
  ⟨fun _ => (V6.steps_permute (by decide) (by decide) _).map, fun _ => (V6.steps_permute (by decide) (by decide) _).map,
   fun _ => (V6.steps_permute (by decide) (by decide) _).map, fun _ => (V6.steps_permute (by decide) (by decide) _).map⟩
theorem permWorkV7 : PermWork primsK128V7 :=
  ⟨fun _ => (V7.steps_permute (by decide) (by decide) _).map, fun _ => (V7.steps_permute (by decide) (by decide) _).map,
   fun _ => (V7.steps_permute (by decide) (by decide) _).map, fun _ => (V7.steps_permute (by decide) (by decide) _).map⟩
theorem permWorkV6 : PermWork primsK128V6 :=
  ⟨fun _ => (V6.steps_permute (by decide) (by decide) _).map, fun _ => (V6.steps_permute (by decide) (by decide) _).map,
   fun _ => (V6.steps_permute (by decide) (by decide) _).map, fun _ => (V6.steps_permute (by decide) (by decide) _).map⟩

end Arm
end K128
end Model
