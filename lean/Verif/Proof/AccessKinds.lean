import Verif.Proof.EffectiveType
import Verif.Model.Placement
/-!
# Statements about all accesses of an execution
-/

namespace C

/-- An access of a sequence is one of its parts. -/
theorem access_bind (f : CM α) (g : α → CM β) : ∀ (s : St) (x : Access), x ∈ accesses (CM.bind f g) s →
    x ∈ accesses f s ∨ ∃ a s', x ∈ accesses (g a) s' := by
  induction f with
  | ret a => exact fun s x hx => .inr ⟨a, s, hx⟩
  | ub u => exact fun s x hx => nomatch hx
  | load al w p k ih =>
    intro s x hx
    rcases List.mem_cons.1 hx with rfl | hx
    · exact .inl (List.mem_cons_self ..)
    · exact (ih _ s x hx).imp_left (List.mem_cons_of_mem _)
  | store al p bs k ih =>
    intro s x hx
    rcases List.mem_cons.1 hx with rfl | hx
    · exact .inl (List.mem_cons_self ..)
    · exact (ih _ x hx).imp_left (List.mem_cons_of_mem _)
  | branch b k ih => exact fun s x hx => ih s x hx
  | getg g k ih => exact fun s x hx => ih _ s x hx
  | setg g v k ih => exact fun s x hx => ih _ x hx

/-- Every access of every execution of `f` satisfies `P`. -/
def AllAcc (P : Access → Prop) (f : CM α) : Prop := ∀ (s : St) (x : Access), x ∈ accesses f s → P x

namespace AllAcc
variable {P : Access → Prop}

theorem bind {f : CM α} {g : α → CM β} (hf : AllAcc P f) (hg : ∀ a, AllAcc P (g a)) : AllAcc P (f >>= g) := by
  intro s x hx
  rcases access_bind f g s x hx with h | ⟨a, s', h⟩
  · exact hf s x h
  · exact hg a s' x h

theorem ret (a : α) : AllAcc P (pure a : CM α) := fun _ _ hx => nomatch hx
theorem ub (u : UB) : AllAcc P (C.ub u : CM α) := fun _ _ hx => nomatch hx
theorem branch (b : Bool) : AllAcc P (C.branch b) := fun _ _ hx => nomatch hx
theorem getg (g : Glob) : AllAcc P (C.getg g) := fun _ _ hx => nomatch hx
theorem setg (g : Glob) (v : BitVec 64) : AllAcc P (C.setg g v) := fun _ _ hx => nomatch hx

theorem load {al w : Nat} {p : Ptr} (h : P ⟨false, al, p, w⟩) : AllAcc P (C.load al w p) := by
  intro s x hx
  rcases List.mem_cons.1 hx with rfl | hx
  · exact h
  · exact nomatch hx

theorem store {al : Nat} {p : Ptr} {bs : List Byte} (h : P ⟨true, al, p, bs.length⟩) : AllAcc P (C.store al p bs) := by
  intro s x hx
  rcases List.mem_cons.1 hx with rfl | hx
  · exact h
  · exact nomatch hx

theorem ite {c : Prop} [Decidable c] {f g : CM α} (hf : AllAcc P f) (hg : AllAcc P g) : AllAcc P (if c then f else g) := by
  split
  · exact hf
  · exact hg

theorem ifThen {b : Bool} {f : CM Unit} (hf : AllAcc P f) : AllAcc P (C.ifThen b f) := (branch b).bind fun _ => ite hf (ret _)

theorem forN {σ : Type} {f : Nat → σ → CM σ} (h : ∀ i s, AllAcc P (f i s)) : ∀ (n i : Nat) (s : σ), AllAcc P (C.forN n i f s)
  | 0, _, _ => (branch _).bind fun _ => ret _
  | n + 1, i, s => (branch _).bind fun _ => (h i s).bind fun s' => forN h n (i + 1) s'

theorem whileGe {σ : Type} {r : Nat} {hr : 0 < r} {body : Nat → σ → CM σ} (len i : Nat) (s : σ)
    (h : ∀ j s, r * j + r ≤ r * i + len → AllAcc P (body j s)) : AllAcc P (C.whileGe r hr len i body s) := by
  induction len using Nat.strongRecOn generalizing i s with
  | ind len ih =>
    unfold C.whileGe
    split
    · rename_i hlen
      refine (branch _).bind fun _ => (h i s (by omega)).bind fun s' => ih _ (by omega) _ _ fun j s hj => h j s ?_
      rw [Nat.mul_add, Nat.mul_one] at hj
      omega
    · exact (branch _).bind fun _ => ret _

end AllAcc

end C

namespace Model
open C Spec
variable {P : Access → Prop}

/-- The permutations access no memory. -/
structure Opt.Prims.Quiet (D : Opt.Prims) : Prop where
  pH : ∀ {P : Access → Prop} s, AllAcc P (D.pH s)
  pB : ∀ {P : Access → Prop} s, AllAcc P (D.pB s)
  pE : ∀ {P : Access → Prop} s, AllAcc P (D.pE s)
  pK : ∀ {P : Access → Prop} s, AllAcc P (D.pK s)

namespace Opt

theorem quiet_switch {κ : Type} (round : State → κ → State) (c12 c6 c1 : List κ) (nr : Nat) (s : State) :
    AllAcc P (switchRounds round c12 c6 c1 nr s) :=
  (AllAcc.branch _).bind fun _ => .ite (.ret _) ((AllAcc.branch _).bind fun _ => .ite (.ret _) (.ret _))

theorem quiet_switch7 {κ : Type} (round : State → κ → State) (c12 c6 c1 : List κ) (nr : Nat) (s : State) :
    AllAcc P (switchRounds7 round c12 c6 c1 nr s) :=
  (AllAcc.branch _).bind fun _ => .ite (.ret _) ((AllAcc.branch _).bind fun _ => .ite (.ret _)
    ((AllAcc.branch _).bind fun _ => .ite (.ret _) (.ret _)))

theorem quiet_tiny (round : State → Byte → State) : ∀ (fuel : Nat) (i : Int) (s : State), AllAcc P (tinyLoop round fuel i s)
  | 0, _, _ => .ub _
  | fuel + 1, _, _ => (AllAcc.branch _).bind fun _ => .ite (quiet_tiny round fuel _ _) (.ret _)

theorem quiet_unrolled {κ : Type} (round : State → κ → State) (c12 c6 c1 : List κ) (t f b : BitVec 64 → BitVec 64) :
    (unrolled round c12 c6 c1 t f b).Quiet :=
  ⟨fun _ => .ret _, fun _ => .ret _, fun _ => .ret _, fun _ => .ret _⟩

theorem quiet_via {pr : Nat → State → CM State} (h : ∀ {P : Access → Prop} n s, AllAcc P (pr n s)) (t f b : BitVec 64 → BitVec 64) :
    (viaProunds pr t f b).Quiet :=
  ⟨fun s => h _ s, fun s => h _ s, fun s => h _ s, fun s => h _ s⟩

/-- Reads and accesses as characters satisfy `P`. -/
structure Mild (P : Access → Prop) : Prop where
  rd : ∀ al p w, P ⟨false, al, p, w⟩
  wr : ∀ p w, P ⟨true, 1, p, w⟩

section
variable {D : Prims} (Q : D.Quiet) (M : Mild P)
include M

theorem acc_load8 (p : Ptr) : AllAcc P (load8 p) := (AllAcc.load (M.rd ..)).bind fun _ => .ret _
theorem acc_load64 (p : Ptr) : AllAcc P (load64 p) := (AllAcc.load (M.rd ..)).bind fun _ => .ret _
theorem acc_loadLen (p : Ptr) : AllAcc P (loadLen p) := (AllAcc.load (M.rd ..)).bind fun _ => .ret _
theorem acc_storeLen (p : Ptr) (n : Nat) : AllAcc P (storeLen p n) := AllAcc.store (M.wr ..)
theorem acc_store8 (p : Ptr) (b : Byte) : AllAcc P (store8 p b) := AllAcc.store (M.wr ..)
theorem acc_get (y : Src) (i : Nat) : AllAcc P (y.get i) := by
  cases y with
  | ext p => exact acc_load8 M _
  | loc bs => exact AllAcc.ite (.ret _) (.ub _)
theorem acc_storeTag1 (p : Ptr) (t : List Byte) : AllAcc P (storeTag 1 p t) := AllAcc.forN (fun _ _ => .store (M.wr ..)) _ _ _

include Q

theorem acc_absorb (s : State) (src : Ptr) (len : Nat) : AllAcc P (absorbLanes D s src len) := by
  refine AllAcc.bind (.whileGe _ _ _ fun j s _ => (acc_load64 M _).bind fun _ => Q.pH _) fun s => ?_
  refine (AllAcc.branch _).bind fun _ => .ite ?_ (Q.pH _)
  exact (AllAcc.forN (fun _ _ => (acc_load8 M _).bind fun _ => .ret _) _ _ _).bind fun _ => Q.pH _

theorem acc_rk (k : Ptr) (iv : List Byte) (y : Src) (out : State) (n : Nat) : AllAcc P (isapRk D k iv y out n) := by
  refine (acc_load64 M _).bind fun _ => (acc_load64 M _).bind fun _ => (Q.pK _).bind fun _ => AllAcc.bind ?_ fun _ =>
    (Q.pK _).bind fun _ => (AllAcc.branch _).bind fun _ => .ite (.ret _) (.ret _)
  refine AllAcc.forN (fun i s => ?_) _ _ _
  exact (acc_get M _ _).bind fun _ => (Q.pB _).bind fun _ => (Q.pB _).bind fun _ => (Q.pB _).bind fun _ => (Q.pB _).bind fun _ =>
    (Q.pB _).bind fun _ => (Q.pB _).bind fun _ => (Q.pB _).bind fun _ => (AllAcc.branch _).bind fun _ => .ite (Q.pB _) (.ret _)

theorem acc_macAbsorb (npub ad : Ptr) (adlen : Nat) (c : Ptr) (clen : Nat) : AllAcc P (macAbsorb D npub ad adlen c clen) :=
  (acc_load64 M _).bind fun _ => (acc_load64 M _).bind fun _ => (Q.pH _).bind fun _ => (acc_absorb Q M _ _ _).bind fun _ => acc_absorb Q M _ _ _

theorem acc_mac (k npub ad : Ptr) (adlen : Nat) (c : Ptr) (clen : Nat) : AllAcc P (isapMac D k npub ad adlen c clen) :=
  (acc_macAbsorb Q M _ _ _ _ _).bind fun _ => (acc_rk Q M _ _ _ _ _).bind fun _ => (Q.pH _).bind fun _ => .ret _

/-- `isap_enc` stores by words only the full blocks of its output. -/
theorem acc_enc (k npub m : Ptr) (mlen : Nat) (c : Ptr) (h : ∀ i, 8 * i + 8 ≤ mlen → P ⟨true, 8, c + 8 * i, 8⟩) :
    AllAcc P (isapEnc D k npub m mlen c) := by
  refine AllAcc.bind (acc_rk Q M _ _ _ _ _) fun _ => (acc_load64 M _).bind fun _ => (acc_load64 M _).bind fun _ => AllAcc.bind ?_ fun _ => ?_
  · refine AllAcc.whileGe _ _ _ fun j s hj => (Q.pE _).bind fun _ => (acc_load64 M _).bind fun _ => AllAcc.bind ?_ fun _ => .ret _
    exact AllAcc.store (h j (by omega))
  · refine AllAcc.ifThen ((Q.pE _).bind fun _ => ?_)
    exact AllAcc.forN (fun _ _ => (acc_load8 M _).bind fun _ => acc_store8 M _ _) _ _ _

omit Q in
theorem acc_encrypt {I : Impl} (hm : ∀ k npub ad adlen c clen, AllAcc P (I.mac k npub ad adlen c clen)) (ht : I.tagAlign = 1) (a : EncArgs)
    (he : AllAcc P (I.enc a.k a.npub a.m a.mlen a.c)) : AllAcc P (I.aead.encrypt a) := by
  refine (acc_storeLen M _ _).bind fun _ => (AllAcc.ifThen he).bind fun _ => (hm _ _ _ _ _ _).bind fun _ => AllAcc.bind ?_ fun _ => .ret _
  rw [ht]
  exact acc_storeTag1 M _ _

omit Q in
theorem acc_decryptAt1 {I : Impl} (hm : ∀ k npub ad adlen c clen, AllAcc P (I.mac k npub ad adlen c clen)) (ht : I.tagAlign = 1)
    (u : Ptr) (a : DecArgs) (he : ∀ l, AllAcc P (I.enc a.k a.npub a.c l a.m)) : AllAcc P (I.decryptAt u a) := by
  refine (acc_storeLen M _ _).bind fun _ => (acc_loadLen M _).bind fun _ => (hm _ _ _ _ _ _).bind fun _ => AllAcc.bind ?_ fun _ => ?_
  · rw [ht]; exact acc_storeTag1 M _ _
  · refine AllAcc.bind ?_ fun _ => (AllAcc.branch _).bind fun _ => .ite ?_ (.ret _)
    · exact AllAcc.forN (fun _ _ => (acc_load8 M _).bind fun _ => (acc_loadLen M _).bind fun _ => (acc_load8 M _).bind fun _ => .ret _) _ _ _
    · exact (acc_loadLen M _).bind fun _ => (AllAcc.ifThen ((acc_loadLen M _).bind fun _ => he _)).bind fun _ => .ret _

end

namespace Stp
variable {D : StpPrims} (M : Mild P) (Q : D.toPrims.Quiet) (QP : ∀ s, AllAcc P (D.pPVP s))
include M Q

theorem acc_stpMac (k npub ad : Ptr) (adlen : Nat) (c : Ptr) (clen : Nat) : AllAcc P (Stp.isapMac D k npub ad adlen c clen) :=
  (acc_macAbsorb Q M _ _ _ _ _).bind fun _ => (AllAcc.setg _ _).bind fun _ => (AllAcc.setg _ _).bind fun _ =>
    (acc_rk Q M _ _ _ _ _).bind fun _ => (Q.pH _).bind fun _ => .ret _

include QP

omit Q in
theorem acc_pvp (T T' : Ptr) : AllAcc P (pvpAt D T T') := by
  have half : ∀ T, AllAcc P (pvpHalfAt D T) := fun T => (acc_load64 M _).bind fun _ => (acc_load64 M _).bind fun _ =>
    (AllAcc.getg _).bind fun _ => (AllAcc.getg _).bind fun _ => QP _
  exact (half _).bind fun _ => (half _).bind fun _ => (AllAcc.forN (fun _ _ => .ret _) _ _ _).bind fun _ => AllAcc.forN (fun _ _ => .ret _) _ _ _

theorem acc_stpDecryptAt (u v : Ptr) (a : DecArgs) (he : ∀ l, AllAcc P (isapEnc D.toPrims a.k a.npub a.c l a.m)) :
    AllAcc P (Stp.decryptAt D u v a) := by
  refine (acc_storeLen M _ _).bind fun _ => (acc_loadLen M _).bind fun _ => (acc_stpMac M Q _ _ _ _ _ _).bind fun _ =>
    (acc_storeTag1 M _ _).bind fun _ => AllAcc.bind ?_ fun _ => (acc_pvp M QP _ _).bind fun _ =>
      (AllAcc.branch _).bind fun _ => .ite ?_ (.ret _)
  · exact AllAcc.forN (fun _ _ => (acc_loadLen M _).bind fun _ => (acc_load8 M _).bind fun _ => acc_store8 M _ _) _ _ _
  · exact (acc_loadLen M _).bind fun _ => (AllAcc.ifThen ((acc_loadLen M _).bind fun _ => he _)).bind fun _ => .ret _

end Stp
end Opt
end Model
