import Verif.Model.Perms
import Verif.Proof.Targets
import Verif.Proof.Bijection
/-!
# The permutations of all implementations
-/

namespace Spec

/-- A bijection on the byte strings of a given length. -/
structure BijOn (k : Nat) (F : List Byte → List Byte) : Prop where
  len : ∀ B, B.length = k → (F B).length = k
  inj : ∀ B B', B.length = k → B'.length = k → F B = F B' → B = B'
  surj : ∀ B', B'.length = k → ∃ B, B.length = k ∧ F B = B'

theorem bijOn_ascon {q : Ascon.State → Ascon.State} (h : Bijective q) : BijOn 40 fun B => Ascon.toBytes (q (Ascon.ofBytes B)) where
  len _ _ := by simp
  inj B B' hB hB' he := by
    have := h.1 _ _ (Ascon.toBytes_inj he)
    rw [← Ascon.toBytes_ofBytes B hB, this, Ascon.toBytes_ofBytes B' hB']
  surj B' hB' := by
    obtain ⟨S, hS⟩ := h.2 (Ascon.ofBytes B')
    refine ⟨Ascon.toBytes S, by simp, ?_⟩
    simp only [Ascon.ofBytes_toBytes, hS, Ascon.toBytes_ofBytes B' hB']

theorem getElem?_pairs {α β : Type} (a b : α → β) (l : List α) (k : Nat) :
    (l.flatMap fun i => [a i, b i])[2 * k]? = l[k]?.map a ∧ (l.flatMap fun i => [a i, b i])[2 * k + 1]? = l[k]?.map b := by
  induction l generalizing k with
  | nil => simp
  | cons x l ih =>
    cases k with
    | zero => simp
    | succ k =>
      have := ih k
      simp only [List.flatMap_cons, List.cons_append, List.nil_append, show 2 * (k + 1) = 2 * k + 1 + 1 by omega,
        List.getElem?_cons_succ]
      exact this

namespace Keccak

theorem lane_at (A : State) (i : Nat) (h : i < 25) : lane A (i % 5) (i / 5) = A[i] := by
  unfold lane
  congr 1
  omega

theorem bytes_at (A : State) (i : Nat) (h : i < 25) :
    (toBytes A).getD (2 * i) 0 = A[i].setWidth 8 ∧ (toBytes A).getD (2 * i + 1) 0 = (A[i] >>> 8).setWidth 8 := by
  have := getElem?_pairs (fun i => (lane A (i % 5) (i / 5)).setWidth 8) (fun i => ((lane A (i % 5) (i / 5)) >>> 8).setWidth 8)
    (List.range 25) i
  rw [List.getD, List.getD, toBytes, this.1, this.2, List.getElem?_range h, ← lane_at A i h]
  exact ⟨rfl, rfl⟩

theorem ofBytes_toBytes (A : State) : ofBytes (toBytes A) = A := by
  apply Vector.ext
  intro i hi
  obtain ⟨h0, h1⟩ := bytes_at A i hi
  rw [ofBytes, Vector.getElem_ofFn, h0, h1]
  generalize A[i] = x
  apply BitVec.eq_of_getLsbD_eq
  intro j hj
  rw [BitVec.getLsbD_append]
  by_cases h : j < 8
  · simp [h]
  · simp only [h, BitVec.getLsbD_setWidth, BitVec.getLsbD_ushiftRight, show j - 8 < 8 by omega,
      decide_true, Bool.true_and, show 8 + (j - 8) = j by omega, if_false]

theorem low_append (x y : Byte) : (x ++ y : BitVec 16).setWidth 8 = y := by
  apply BitVec.eq_of_getLsbD_eq
  intro i hi
  rw [BitVec.getLsbD_setWidth, BitVec.getLsbD_append, if_pos hi]
  simp [hi]

theorem high_append (x y : Byte) : ((x ++ y : BitVec 16) >>> 8).setWidth 8 = x := by
  apply BitVec.eq_of_getLsbD_eq
  intro i hi
  rw [BitVec.getLsbD_setWidth, BitVec.getLsbD_ushiftRight, BitVec.getLsbD_append, if_neg (by omega), Nat.add_sub_cancel_left]
  simp [hi]

theorem toBytes_ofBytes (b : List Byte) (h : b.length = 50) : toBytes (ofBytes b) = b := by
  apply List.ext_getElem (by rw [length_toBytes, h])
  intro j h1 h2
  have e : ∀ (l : List Byte) (j : Nat) (h : j < l.length), l[j] = l.getD j 0 := by
    intro l j h
    rw [List.getD, List.getElem?_eq_getElem h, Option.getD_some]
  rw [e, e]
  obtain ⟨h0, h1'⟩ := bytes_at (ofBytes b) (j / 2) (by omega)
  have hw : (ofBytes b)[j / 2]'(by omega) = (b.getD (2 * (j / 2) + 1) 0) ++ (b.getD (2 * (j / 2)) 0) := by
    rw [ofBytes, Vector.getElem_ofFn]
  rw [hw] at h0 h1'
  rcases Nat.mod_two_eq_zero_or_one j with hj | hj
  · rw [show 2 * (j / 2) = j by omega] at h0
    rw [h0, low_append]
  · rw [show 2 * (j / 2) + 1 = j by omega] at h1'
    rw [h1', high_append]

theorem bijOn {q : State → State} (h : Bijective q) : BijOn 50 fun B => toBytes (q (ofBytes B)) where
  len _ _ := length_toBytes _
  inj B B' hB hB' he := by
    have h1 := congrArg ofBytes he
    simp only [ofBytes_toBytes] at h1
    rw [← toBytes_ofBytes B hB, h.1 _ _ h1, toBytes_ofBytes B' hB']
  surj B' hB' := by
    obtain ⟨S, hS⟩ := h.2 (ofBytes B')
    refine ⟨toBytes S, length_toBytes _, ?_⟩
    simp only [ofBytes_toBytes, hS, toBytes_ofBytes B' hB']

end Keccak

end Spec

namespace Model
open C Spec Spec.Ascon Opt

variable {e : Env} {s : St}

theorem runs_onBytes {toWord fromWord φ : BitVec 64 → BitVec 64} {f : Opt.State → CM Opt.State} {q : Opt.State → Opt.State}
    (hto : ∀ B, B.length = 8 → toWord (le64 B) = φ (ofBe64 B)) (hfrom : ∀ w, toLe64 (fromWord (φ w)) = be64 w)
    (hf : ∀ S, Runs (f (rep φ S)) e s (rep φ (q S)) s) {B : List Byte} (hB : B.length = 40) :
    Runs (onBytes toWord fromWord f B) e s (toBytes (q (ofBytes B))) s := by
  have ht : ∀ k, k ≤ 32 → ofBe64 ((B.drop k).take 8) = ofBe64 (B.drop k) := fun k hk => ofBe64_take _
  have h0 : ofBe64 (B.take 8) = ofBe64 B := ofBe64_take _
  have := hf (ofBytes B)
  unfold onBytes
  rw [hto _ (by simp; omega), hto _ (by simp; omega), hto _ (by simp; omega), hto _ (by simp; omega), hto _ (by simp; omega),
    h0, ht 8 (by omega), ht 16 (by omega), ht 24 (by omega), ht 32 (by omega)]
  refine runs_bind this (Opt.runs_pure_eq ?_)
  simp only [rep, hfrom]
  rfl

/-- The permutations of an optimized implementation. -/
theorem RepOK.perms {D : Prims} {φ : BitVec 64 → BitVec 64} {q : Nat → Opt.State → Opt.State} (O : RepOK D φ q) {n : Nat}
    {f : List Byte → CM (List Byte)} (h : (n, f) ∈ D.perms) {B : List Byte} (hB : B.length = 40) :
    Runs (f B) e s (toBytes (q n (ofBytes B))) s := by
  simp only [Opt.Prims.perms, List.mem_cons, Prod.mk.injEq, List.not_mem_nil, or_false] at h
  rcases h with ⟨rfl, rfl⟩ | ⟨rfl, rfl⟩ | ⟨rfl, rfl⟩ | ⟨rfl, rfl⟩
  · exact runs_onBytes O.toWord O.fromWord (O.pH e s) hB
  · exact runs_onBytes O.toWord O.fromWord (O.pB e s) hB
  · exact runs_onBytes O.toWord O.fromWord (O.pE e s) hB
  · exact runs_onBytes O.toWord O.fromWord (O.pK e s) hB

theorem StpOK.perms {D : StpPrims} {φ : BitVec 64 → BitVec 64} (O : StpOK D φ Spec.Ascon.p) {n : Nat}
    {f : List Byte → CM (List Byte)} (h : (n, f) ∈ D.perms) {B : List Byte} (hB : B.length = 40) :
    Runs (f B) e s (Ascon.perm n B) s := by
  rcases List.mem_append.1 h with h | h
  · exact RepOK.perms O.rep h hB
  · simp only [List.mem_cons, Prod.mk.injEq, List.not_mem_nil, or_false] at h
    obtain ⟨rfl, rfl⟩ := h
    exact runs_onBytes O.rep.toWord O.rep.fromWord (O.pPVP e s) hB

theorem Opt.runs_tinyRounds_all {round : Opt.State → Byte → Opt.State} (h : ByteRoundOK round) {n : Nat} (h0 : 0 < n) (hn : n ≤ 12)
    (S : Opt.State) : Runs (tinyRounds round n (rep id S)) e s (rep id (p n S)) s := by
  rw [rep_id, rep_id, tinyRounds, p]
  have : ∀ i : Fin 12, (3 + (i.val + 1)) <<< 4 ||| (12 - (i.val + 1)) = 0xf0 - 0x0f * (11 - i.val) := by decide
  have := this ⟨n - 1, by omega⟩
  simp only [show n - 1 + 1 = n by omega] at this
  rw [this]
  have := runs_tinyLoop h e s (n - 1) 100 (11 - (n - 1)) (by omega) (by omega) S
  rw [show n - 1 + 1 = n by omega, show 11 - (n - 1) = 12 - n by omega] at this
  rw [show 11 - (n - 1) = 12 - n by omega]
  exact this

theorem runs_tinyPerms {D : Prims} (O : RepOK D id p) {round : Opt.State → Byte → Opt.State} (hr : ByteRoundOK round) {n : Nat}
    {f : List Byte → CM (List Byte)} (h : (n, f) ∈ Opt.tinyPerms D round) {B : List Byte} (hB : B.length = 40) :
    Runs (f B) e s (Ascon.perm n B) s := by
  rcases List.mem_append.1 h with h | h
  · exact RepOK.perms O h hB
  · simp only [List.mem_map, List.mem_range, Prod.mk.injEq] at h
    obtain ⟨i, hi, rfl, rfl⟩ := h
    exact runs_onBytes O.toWord O.fromWord (fun S => Opt.runs_tinyRounds_all hr (by omega) (by omega) S) hB

theorem K128.PrimsOK.perms {D : K128.Prims} {P : Params} {L : Limits} (O : K128.PrimsOK D P L) {n : Nat}
    {f : List Byte → CM (List Byte)} (h : (n, f) ∈ D.perms P.sH P.sB P.sE P.sK) {B : List Byte} (hB : B.length = 50) :
    Runs (f B) e s (P.perm n B) s := by
  have hr : ∀ R, K128.Rel (B ++ R) B := fun R => ⟨by simp; omega, by rw [List.take_append_of_le_length (by omega),
    List.take_of_length_le (by omega)]⟩
  simp only [K128.Prims.perms, List.mem_cons, Prod.mk.injEq, List.not_mem_nil, or_false] at h
  rcases h with ⟨rfl, rfl⟩ | ⟨rfl, rfl⟩ | ⟨rfl, rfl⟩ | ⟨rfl, rfl⟩ | ⟨rfl, rfl⟩ | ⟨rfl, rfl⟩
  · exact Opt.runs_pure_eq (O.pH _ _ (hr _)).2
  · exact Opt.runs_pure_eq (O.pB _ _ (hr _)).2
  · exact Opt.runs_pure_eq (O.pE _ _ (hr _)).2
  · exact Opt.runs_pure_eq (O.pK _ _ (hr _)).2
  · exact Opt.runs_pure_eq (O.pB _ _ (hr _)).2
  · exact Opt.runs_pure_eq (O.pK _ _ (hr _)).2

theorem runs_armPerms {D : K128.Arm.Prims} (hp : ∀ n A, 0 < n → n ≤ 20 → ∀ e s, Runs (D.permute n A) e s (Keccak.p n A) s) {n : Nat}
    {f : List Byte → CM (List Byte)} (h : (n, f) ∈ (List.range 20).map fun i => (i + 1, D.perm (i + 1)))
    {B : List Byte} (hB : B.length = 50) : Runs (f B) e s (Keccak.perm n B) s := by
  simp only [List.mem_map, List.mem_range, Prod.mk.injEq] at h
  obtain ⟨i, hi, rfl, rfl⟩ := h
  exact K128.Arm.runs_perm (fun A e s => hp _ A (by omega) (by omega) e s) B hB

theorem runs_refAscon {n : Nat} {f : List Byte → CM (List Byte)}
    (h : (n, f) ∈ (List.range 13).map fun n => (n, fun B => AsconRef.permute B n)) (B : List Byte) :
    Runs (f B) e s (Ascon.perm n B) s := by
  simp only [List.mem_map, List.mem_range, Prod.mk.injEq] at h
  obtain ⟨i, hi, rfl, rfl⟩ := h
  exact AsconRef.runs_permute B (by omega)

theorem runs_refKeccak {n : Nat} {f : List Byte → CM (List Byte)}
    (h : (n, f) ∈ (List.range 21).map fun n => (n, fun B => KeccakRef.permute B n)) (B : List Byte) :
    Runs (f B) e s (Keccak.perm n B) s := by
  simp only [List.mem_map, List.mem_range, Prod.mk.injEq] at h
  obtain ⟨i, hi, rfl, rfl⟩ := h
  exact KeccakRef.runs_permute B (by omega)

theorem runs_onBytes_u64big {f : Opt.State → Opt.State} {n : Nat} (hf : ∀ S, f S = p n S) {B : List Byte} (hB : B.length = 40) :
    Runs (onBytes A128.Opt64.u64big A128.Opt64.u64big (fun S => pure (f S)) B) e s (Ascon.perm n B) s := by
  refine runs_onBytes (φ := id) (q := p n) (fun B _ => A128.Opt64.u64big_le64 B) A128.Opt64.toLe64_u64big (fun S => ?_) hB
  rw [rep_id, rep_id, hf]
  exact runs_pure _ _ _

/-- Every permutation of every implementation but bi_32_armv7m. -/
theorem Target.runs_perms (t : Target) (ht : t.conforming = true) {n : Nat} {f : List Byte → CM (List Byte)}
    (h : (n, f) ∈ t.perms) {B : List Byte} (hB : B.length = t.set.spec.n) : Runs (f B) e s (t.set.spec.perm n B) s := by
  cases t with
  | ref P =>
    cases P
    · exact runs_refAscon h B
    · exact runs_refAscon h B
    · exact runs_refKeccak h B
    · exact runs_refKeccak h B
  | x P =>
    cases P
    · exact runs_refAscon h B
    · exact runs_refAscon h B
    · exact runs_refKeccak h B
    · exact runs_refKeccak h B
  | a128aOpt64 => exact RepOK.perms Opt64.repOK h hB
  | a128aOpt32 => exact RepOK.perms Opt32.repOK h hB
  | a128aOpt32Compact => exact RepOK.perms Opt32.repOKCompact h hB
  | a128aOpt32Tiny => exact runs_tinyPerms Opt32.repOKTiny Opt32.byteRound h hB
  | a128aOpt32Stp => exact StpOK.perms Opt32.stpOK h hB
  | a128aOpt8 => exact RepOK.perms Opt8.repOK h hB
  | a128aOpt8Tiny => exact runs_tinyPerms Opt8.repOKTiny Opt8.byteRound h hB
  | a128aBi8 => exact RepOK.perms Bi8.repOK h hB
  | a128aBi32 => exact RepOK.perms Bi32.repOK h hB
  | a128aBi32Compact => exact RepOK.perms Bi32.repOKCompact h hB
  | a128aBi32Stp => exact StpOK.perms Bi32.stpOK h hB
  | a128aBi32Armv6 => exact RepOK.perms Armv6.repOK h hB
  | a128aBi32Armv6m => exact RepOK.perms Armv6m.repOK h hB
  | a128aBi32Armv6mCompact => exact RepOK.perms Armv6m.repOKCompact h hB
  | a128aBi32Armv6mStp => exact StpOK.perms Armv6m.stpOK h hB
  | a128aBi32Armv7m => cases ht
  | a128aAvx512 _ =>
    simp only [perms, List.mem_cons, Prod.mk.injEq, List.not_mem_nil, or_false] at h
    rcases h with ⟨rfl, rfl⟩ | ⟨rfl, rfl⟩ | ⟨rfl, rfl⟩
    · exact runs_onBytes_u64big A128.Opt64.p12_eq hB
    · exact runs_onBytes_u64big A128.Avx.p6_eq hB
    · exact runs_onBytes_u64big A128.Avx.p1_eq hB
  | a128Opt64 _ =>
    simp only [perms, List.mem_cons, Prod.mk.injEq, List.not_mem_nil, or_false] at h
    obtain ⟨rfl, rfl⟩ := h
    exact runs_onBytes_u64big A128.Opt64.p12_eq hB
  | a128Opt32 =>
    simp only [perms, List.mem_cons, Prod.mk.injEq, List.not_mem_nil, or_false] at h
    rcases h with ⟨rfl, rfl⟩ | ⟨rfl, rfl⟩
    · exact runs_onBytes (fun _ => A128.Opt32.toWord_le64) A128.Opt32.toLe64_fromWord (A128.Opt32.permOK.pL e s) hB
    · exact runs_onBytes (fun _ => A128.Opt32.toWord_le64) A128.Opt32.toLe64_fromWord (A128.Opt32.permOK.pU e s) hB
  | a128Opt32Armv67m =>
    simp only [perms, List.mem_cons, Prod.mk.injEq, List.not_mem_nil, or_false] at h
    rcases h with ⟨rfl, rfl⟩ | ⟨rfl, rfl⟩
    · exact runs_onBytes (fun _ => A128.Opt32.toWord_le64) A128.Opt32.toLe64_fromWord (A128.Opt32.permOKArm.pL e s) hB
    · exact runs_onBytes (fun _ => A128.Opt32.toWord_le64) A128.Opt32.toLe64_fromWord (A128.Opt32.permOKArm.pU e s) hB
  | k128aOpt64 => exact K128.Opt64.primsK128a_ok.perms h hB
  | k128Opt64 => exact K128.Opt64.primsK128_ok.perms h hB
  | k128aAvx512 j => exact (K128.Avx.prims_ok j).perms h hB
  | k128aOpt32Armv6m => exact runs_armPerms (fun n A h0 h e s => K128.Arm.V6.runs_permute h0 h A) h hB
  | k128aOpt32Armv7m => exact runs_armPerms (fun n A h0 h e s => K128.Arm.V7.runs_permute h0 h A) h hB
  | k128Opt32Armv6m => exact runs_armPerms (fun n A h0 h e s => K128.Arm.V6.runs_permute h0 h A) h hB
  | k128Opt32Armv7m => exact runs_armPerms (fun n A h0 h e s => K128.Arm.V7.runs_permute h0 h A) h hB

/-- What bi_32_armv7m computes is not the Ascon permutation, but a bijection. -/
theorem Armv7m_inverse (i n : Nat) : ∃ g, Inverse (Armv7m.rounds i n) g := by
  induction n generalizing i with
  | zero => exact ⟨fun x => x, fun _ => rfl, fun _ => rfl⟩
  | succ n ih =>
    obtain ⟨g, hg⟩ := Ascon.round_inverse i
    obtain ⟨g', hg'⟩ := ih (i + 1)
    have hr : Inverse Armv7m.rot (fun s => ⟨s.x2, s.x3, s.x4, s.x0, s.x1⟩) := ⟨fun _ => rfl, fun _ => rfl⟩
    exact ⟨_, (hg.comp hr).comp hg'⟩

end Model
