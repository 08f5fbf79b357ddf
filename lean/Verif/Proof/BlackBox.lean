import Verif.Model.BlackBox
import Verif.Proof.Queries
import Verif.Proof.Targets
import Verif.Proof.Perms
/-!
# The mode code computes ISAP with whatever permutation it is linked with
-/

namespace Model
open C Spec

variable {perm : Nat → List Byte → List Byte}

/-! ## Permutations that agree on all states -/

section
variable {P : Params} {perm' : Nat → List Byte → List Byte}

theorem agrees_all (h : ∀ k S, S.length = P.n → perm' k S = P.perm k S) {Q : List (Nat × List Byte)}
    (hQ : ∀ x ∈ Q, x.2.length = P.n) : P.Agrees perm' Q := fun x hx => h x.1 x.2 (hQ x hx)

theorem EncryptOK.congr (W : P.Wf) (h : ∀ k S, S.length = P.n → perm' k S = P.perm k S) {L : Limits} {f : EncArgs → CM Int}
    (H : EncryptOK (P.withPerm perm') L f) : EncryptOK P L f := by
  intro e s a V B
  obtain ⟨s', hr, hm⟩ := H e s a V B
  refine ⟨s', hr, ?_⟩
  rw [hm, Params.agrees_encrypt W.r_pos]
  refine agrees_all h fun x hx => ?_
  rcases List.mem_append.1 hx with hx | hx
  · exact Params.len_encQueries W (by simp) (by simp) _ x hx
  · exact Params.len_macQueries W (by simp) (by simp) _ _ x hx

theorem DecryptOK.congr (W : P.Wf) (h : ∀ k S, S.length = P.n → perm' k S = P.perm k S) {L : Limits} {f : DecArgs → CM Int}
    {acc acc' : (K N A C T : List Byte) → Prop}
    (ha : ∀ K N A C T, K.length = 16 → N.length = 16 → T.length = 16 → (acc' K N A C T ↔ acc K N A C T))
    (H : DecryptOK (P.withPerm perm') L acc' f) : DecryptOK P L acc f := by
  intro e s a V B
  obtain ⟨h1, h2⟩ := H e s a V B
  rw [ha _ _ _ _ _ (by simp) (by simp) (by simp), Params.agrees_enc W.r_pos (agrees_all h (Params.len_encQueries W (by simp) (by simp) _))] at h1
  rw [ha _ _ _ _ _ (by simp) (by simp) (by simp)] at h2
  exact ⟨h1, h2⟩

theorem tagEq_congr (W : P.Wf) (h : ∀ k S, S.length = P.n → perm' k S = P.perm k S) (K N A C T : List Byte)
    (hK : K.length = 16) (hN : N.length = 16) : tagEq (P.withPerm perm') K N A C T ↔ tagEq P K N A C T := by
  rw [tagEq, tagEq, Params.agrees_mac (agrees_all h (Params.len_macQueries W hK hN _ _))]

theorem accepts_congr (W : P.Wf) (hn : P.n = 40) (h : ∀ k S, S.length = P.n → perm' k S = P.perm k S) (K N A C T : List Byte)
    (hK : K.length = 16) (hN : N.length = 16) (hT : T.length = 16) :
    Stp.Accepts (P.withPerm perm') K N A C T ↔ Stp.Accepts P K N A C T := by
  refine Params.agrees_accepts (agrees_all h fun x hx => ?_)
  rcases List.mem_append.1 hx with hx | hx
  · exact Params.len_macQueries W hK hN _ _ x hx
  · have hs := Params.length_macState W A C hN
    have hm := Params.length_mac W A C hK hN
    rw [Params.stpQueries, List.mem_cons, List.mem_singleton] at hx
    rcases hx with rfl | rfl <;> simp [hs, hm, hT, hn, zeros]

end

/-! ## Five lanes -/

open Spec.Ascon (toBytes ofBytes)

/-- A function on bytes as a function on the lanes of the specification. -/
def laneFn (perm : Nat → List Byte → List Byte) (n : Nat) (S : Opt.State) : Opt.State := ofBytes (perm n (toBytes S))

namespace Opt

theorem stateBytes_rep {fromWord φ : BitVec 64 → BitVec 64} (h : ∀ w, toLe64 (fromWord (φ w)) = be64 w) (S : State) :
    stateBytes fromWord (rep φ S) = toBytes S := by
  simp only [stateBytes, rep, h, toBytes]

theorem bytesState_rep {toWord φ : BitVec 64 → BitVec 64} (h : ∀ B, B.length = 8 → toWord (le64 B) = φ (ofBe64 B)) {b : List Byte}
    (hb : b.length = 40) : bytesState toWord b = rep φ (ofBytes b) := by
  simp only [bytesState, rep, ofBytes]
  rw [h _ (by simp; omega), h _ (by simp; omega), h _ (by simp; omega), h _ (by simp; omega), h _ (by simp; omega)]
  simp only [ofBe64_take]

theorem onLanes_rep {toWord fromWord φ : BitVec 64 → BitVec 64} (h1 : ∀ B, B.length = 8 → toWord (le64 B) = φ (ofBe64 B))
    (h2 : ∀ w, toLe64 (fromWord (φ w)) = be64 w) (hl : ∀ k S, S.length = 40 → (perm k S).length = 40) (n : Nat) (S : State) :
    onLanes toWord fromWord (perm n) (rep φ S) = rep φ (laneFn perm n S) := by
  rw [onLanes, stateBytes_rep h2, bytesState_rep h1 (hl _ _ (by simp))]
  rfl

theorem RepOK.linked {D : Prims} {φ : BitVec 64 → BitVec 64} {q : Nat → State → State} (O : RepOK D φ q)
    (hl : ∀ k S, S.length = 40 → (perm k S).length = 40) : RepOK (D.linked perm) φ (laneFn perm) where
  toWord := O.toWord
  fromWord := O.fromWord
  toBI := O.toBI
  xor := O.xor
  top := O.top
  one := O.one
  pH _ _ S := runs_pure_eq (onLanes_rep O.toWord O.fromWord hl 12 S)
  pB _ _ S := runs_pure_eq (onLanes_rep O.toWord O.fromWord hl 1 S)
  pE _ _ S := runs_pure_eq (onLanes_rep O.toWord O.fromWord hl 6 S)
  pK _ _ S := runs_pure_eq (onLanes_rep O.toWord O.fromWord hl 12 S)

theorem StpOK.linked {D : StpPrims} {φ : BitVec 64 → BitVec 64} {q : Nat → State → State} (O : StpOK D φ q)
    (hl : ∀ k S, S.length = 40 → (perm k S).length = 40) : StpOK (D.linked perm) φ (laneFn perm) where
  rep := O.rep.linked hl
  pPVP _ _ S := runs_pure_eq (onLanes_rep O.rep.toWord O.rep.fromWord hl 7 S)

end Opt

section
variable (hl : ∀ k S, S.length = 40 → (perm k S).length = 40)
include hl

theorem laneFn_eq (k : Nat) (S : List Byte) (hS : S.length = 40) : toBytes (laneFn perm k (ofBytes S)) = perm k S := by
  rw [laneFn, Ascon.toBytes_ofBytes S hS, Ascon.toBytes_ofBytes _ (hl _ _ hS)]

theorem wfA128a : (isapA128a.withPerm perm).Wf :=
  ⟨(by decide : 0 < isapA128a.r), (by decide : isapA128a.r < isapA128a.n), (by decide : 24 ≤ isapA128a.n), hl⟩
theorem wfA128 : (isapA128.withPerm perm).Wf :=
  ⟨(by decide : 0 < isapA128.r), (by decide : isapA128.r < isapA128.n), (by decide : 24 ≤ isapA128.n), hl⟩

theorem Opt.RepOK.encrypt {D : Opt.Prims} {φ : BitVec 64 → BitVec 64} {q : Nat → Opt.State → Opt.State} (O : Opt.RepOK D φ q) :
    EncryptOK (isapA128a.withPerm perm) .byWords (Opt.impl (D.linked perm)).aead.encrypt :=
  (Target.encryptOK_opt (O.linked hl)).congr (P := isapA128a.withPerm perm) (wfA128a hl) (laneFn_eq hl)

theorem Opt.RepOK.decrypt {D : Opt.Prims} {φ : BitVec 64 → BitVec 64} {q : Nat → Opt.State → Opt.State} (O : Opt.RepOK D φ q) :
    DecryptOK (isapA128a.withPerm perm) .byWords (tagEq (isapA128a.withPerm perm)) (Opt.impl (D.linked perm)).aead.decrypt :=
  (Target.decryptOK_opt (O.linked hl)).congr (P := isapA128a.withPerm perm) (wfA128a hl) (laneFn_eq hl)
    fun _ _ _ _ _ hK hN _ => tagEq_congr (P := isapA128a.withPerm perm) (wfA128a hl) (laneFn_eq hl) _ _ _ _ _ hK hN

theorem Opt.StpOK.encrypt {D : Opt.StpPrims} {φ : BitVec 64 → BitVec 64} {q : Nat → Opt.State → Opt.State} (O : Opt.StpOK D φ q) :
    EncryptOK (isapA128a.withPerm perm) .byWords (Opt.Stp.aead (D.linked perm)).encrypt :=
  (Opt.Stp.encryptOK (O.linked hl)).congr (P := isapA128a.withPerm perm) (wfA128a hl) (laneFn_eq hl)

theorem Opt.StpOK.decrypt {D : Opt.StpPrims} {φ : BitVec 64 → BitVec 64} {q : Nat → Opt.State → Opt.State} (O : Opt.StpOK D φ q) :
    DecryptOK (isapA128a.withPerm perm) .byWords (Stp.Accepts (isapA128a.withPerm perm)) (Opt.Stp.aead (D.linked perm)).decrypt :=
  (Opt.Stp.decryptOK (O.linked hl)).congr (P := isapA128a.withPerm perm) (wfA128a hl) (laneFn_eq hl)
    fun _ _ _ _ _ hK hN hT => accepts_congr (P := isapA128a.withPerm perm) (wfA128a hl) rfl (laneFn_eq hl) _ _ _ _ _ hK hN hT

theorem encrypt_a128 {I : Impl} {n : Nat} (hm : MacOK (A128.Opt32.PQ (laneFn perm)) ⟨8, 8, n, id⟩ I.mac)
    (he : EncOK (A128.Opt32.PQ (laneFn perm)) ⟨8, 8, n, id⟩ I.enc) (ht : I.tagAlign = 8) :
    EncryptOK (isapA128.withPerm perm) ⟨8, 8, n, id⟩ I.aead.encrypt :=
  (Model.encryptOK A128.Opt32.isAsconQ.wf (Nat.le_add_right · 16) hm.mem he ht.symm ⟨2, by rw [ht]⟩).congr
    (P := isapA128.withPerm perm) (wfA128 hl) (laneFn_eq hl)

theorem decrypt_a128 {I : Impl} {n : Nat} (hm : MacOK (A128.Opt32.PQ (laneFn perm)) ⟨8, 8, n, id⟩ I.mac)
    (he : EncOK (A128.Opt32.PQ (laneFn perm)) ⟨8, 8, n, id⟩ I.enc) :
    DecryptOK (isapA128.withPerm perm) ⟨8, 8, n, id⟩ (tagEq (isapA128.withPerm perm)) I.aead.decrypt :=
  (Model.decryptOK A128.Opt32.isAsconQ.wf (Nat.le_add_right · 16) hm he).congr
    (P := isapA128.withPerm perm) (wfA128 hl) (laneFn_eq hl)
    fun _ _ _ _ _ hK hN _ => tagEq_congr (P := isapA128.withPerm perm) (wfA128 hl) (laneFn_eq hl) _ _ _ _ _ hK hN

theorem permOK_linked : A128.Opt32.PermOK (A128.Opt32.linked perm) (laneFn perm) where
  pL _ _ S := Opt.runs_pure_eq (Opt.onLanes_rep Opt.Bi32.wordOK.toWord Opt.Bi32.wordOK.fromWord hl 12 S)
  pU _ _ S := Opt.runs_pure_eq (Opt.onLanes_rep Opt.Bi32.wordOK.toWord Opt.Bi32.wordOK.fromWord hl 12 S)

theorem cfgOK_linked (d : DataModel) :
    A128.Opt64.CfgOK ((A128.Opt64.cfg d).linked perm) (laneFn perm) (A128.Opt32.PQ (laneFn perm)) :=
  have h : ∀ S, Opt.onLanes A128.Opt64.u64big A128.Opt64.u64big (perm 12) S = laneFn perm 12 S := fun S =>
    Opt.onLanes_rep (φ := id) (fun B _ => A128.Opt64.u64big_le64 B) A128.Opt64.toLe64_u64big hl 12 S
  { isAscon := A128.Opt32.isAsconQ, sH := rfl, sK := rfl, iv := fun _ => rfl, pH := h, pB := h, pE := h }

end

/-! ## ISAP-K -/

section
variable (hl : ∀ k S, S.length = 50 → (perm k S).length = 50)
include hl

theorem wfK128a : (isapK128a.withPerm perm).Wf :=
  ⟨(by decide : 0 < isapK128a.r), (by decide : isapK128a.r < isapK128a.n), (by decide : 24 ≤ isapK128a.n), hl⟩
theorem wfK128 : (isapK128.withPerm perm).Wf :=
  ⟨(by decide : 0 < isapK128.r), (by decide : isapK128.r < isapK128.n), (by decide : 24 ≤ isapK128.n), hl⟩

theorem rel_onFront (k : Nat) {S T : List Byte} (h : K128.Rel S T) : K128.Rel (K128.onFront (perm k) S) (perm k T) := by
  have h1 := hl k T h.len
  rw [K128.onFront, h.2]
  exact ⟨by simp [h1], by rw [List.take_append_of_le_length (by omega), List.take_of_length_le (by omega)]⟩

theorem primsK128a_linked {D : K128.Prims} {L : Limits} (O : K128.PrimsOK D isapK128a L) :
    K128.PrimsOK (D.linked 16 1 8 8 perm) (isapK128a.withPerm perm) L where
  wf := wfK128a hl
  n := rfl
  r := rfl
  iv := O.iv
  pH _ _ := rel_onFront hl 16
  pB _ _ := rel_onFront hl 1
  pE _ _ := rel_onFront hl 8
  pK _ _ := rel_onFront hl 8
  al2 := O.al2
  ldBlk := O.ldBlk
  ldMsg := O.ldMsg

theorem primsK128_linked {D : K128.Prims} {L : Limits} (O : K128.PrimsOK D isapK128 L) :
    K128.PrimsOK (D.linked 20 12 12 12 perm) (isapK128.withPerm perm) L where
  wf := wfK128 hl
  n := rfl
  r := rfl
  iv := O.iv
  pH _ _ := rel_onFront hl 20
  pB _ _ := rel_onFront hl 12
  pE _ _ := rel_onFront hl 12
  pK _ _ := rel_onFront hl 12
  al2 := O.al2
  ldBlk := O.ldBlk
  ldMsg := O.ldMsg

omit hl in
theorem unwords_words {S : List Byte} (h : S.length = 50) : KeccakRef.unwords (KeccakRef.words S) = S := by
  rw [K128.Opt64.words_take, KeccakRef.unwords_eq, List.take_of_length_le (by omega), Keccak.toBytes_ofBytes S h]

theorem runs_armPerm (D : K128.Arm.Prims) (n : Nat) (e : Env) (s : St) (S : List Byte) (h : S.length = 50) :
    Runs ((D.linked perm).perm n S) e s (perm n S) s := by
  refine runs_bind (runs_pure _ _ _) (Opt.runs_pure_eq ?_)
  rw [unwords_words h, unwords_words (hl _ _ h)]

theorem armK128a_linked {D : K128.Arm.Prims} (O : K128.Arm.PrimsOK D isapK128a) (h : [D.sH, D.sB, D.sE, D.sK] = [16, 1, 8, 8]) :
    K128.Arm.PrimsOK (D.linked perm) (isapK128a.withPerm perm) := by
  simp only [List.cons.injEq, and_true] at h
  obtain ⟨h1, h2, h3, h4⟩ := h
  refine ⟨wfK128a hl, rfl, rfl, O.iv, ?_, ?_, ?_, ?_⟩ <;> intro e s S hS
  · show Runs ((D.linked perm).perm D.sH S) e s _ s
    rw [h1]; exact runs_armPerm hl D 16 e s S hS
  · show Runs ((D.linked perm).perm D.sB S) e s _ s
    rw [h2]; exact runs_armPerm hl D 1 e s S hS
  · show Runs ((D.linked perm).perm D.sE S) e s _ s
    rw [h3]; exact runs_armPerm hl D 8 e s S hS
  · show Runs ((D.linked perm).perm D.sK S) e s _ s
    rw [h4]; exact runs_armPerm hl D 8 e s S hS

theorem armK128_linked {D : K128.Arm.Prims} (O : K128.Arm.PrimsOK D isapK128) (h : [D.sH, D.sB, D.sE, D.sK] = [20, 12, 12, 12]) :
    K128.Arm.PrimsOK (D.linked perm) (isapK128.withPerm perm) := by
  simp only [List.cons.injEq, and_true] at h
  obtain ⟨h1, h2, h3, h4⟩ := h
  refine ⟨wfK128 hl, rfl, rfl, O.iv, ?_, ?_, ?_, ?_⟩ <;> intro e s S hS
  · show Runs ((D.linked perm).perm D.sH S) e s _ s
    rw [h1]; exact runs_armPerm hl D 20 e s S hS
  · show Runs ((D.linked perm).perm D.sB S) e s _ s
    rw [h2]; exact runs_armPerm hl D 12 e s S hS
  · show Runs ((D.linked perm).perm D.sE S) e s _ s
    rw [h3]; exact runs_armPerm hl D 12 e s S hS
  · show Runs ((D.linked perm).perm D.sK S) e s _ s
    rw [h4]; exact runs_armPerm hl D 12 e s S hS

end

/-! ## All implementations -/

theorem cfgOK_ref_linked (p : ParamSet) (hl : ∀ k S, S.length = p.spec.n → (perm k S).length = p.spec.n) :
    Ref.CfgOK (p.cfg.linked perm) (p.spec.withPerm perm) :=
  have O := p.cfgOK
  { wf := ⟨O.wf.r_pos, O.wf.r_lt, O.wf.n_ge, hl⟩, n := O.n, r := O.r, sH := O.sH, sB := O.sB, sE := O.sE, sK := O.sK,
    perm := fun _ _ _ _ _ _ => runs_pure _ _ _ }

/-- The test for acceptance of a tag. -/
def Target.accWith (perm : Nat → List Byte → List Byte) (t : Target) (K N A C T : List Byte) : Prop :=
  if t.stp = true then Stp.Accepts (t.set.spec.withPerm perm) K N A C T else T = (t.set.spec.withPerm perm).mac K N A C

theorem Target.linkedOK (t : Target) (hl : ∀ k S, S.length = t.set.spec.n → (perm k S).length = t.set.spec.n) {A : Aead}
    (hA : t.aeadWith perm = some A) :
    EncryptOK (t.set.spec.withPerm perm) t.limits A.encrypt ∧ DecryptOK (t.set.spec.withPerm perm) t.limits (t.accWith perm) A.decrypt := by
  have ref : ∀ p : ParamSet, (∀ k S, S.length = p.spec.n → (perm k S).length = p.spec.n) →
      EncryptOK (p.spec.withPerm perm) .byBytes (Ref.impl (p.cfg.linked perm)).aead.encrypt ∧
      DecryptOK (p.spec.withPerm perm) .byBytes (tagEq (p.spec.withPerm perm)) (Ref.impl (p.cfg.linked perm)).aead.decrypt := fun p hl =>
    have O := cfgOK_ref_linked p hl
    ⟨Model.encryptOK O.wf (Nat.le_add_right · 16) (Ref.macOK O).mem (Ref.encOK O) rfl ⟨16, rfl⟩,
     Model.decryptOK O.wf (Nat.le_add_right · 16) (Ref.macOK O) (Ref.encOK O)⟩
  cases t <;> cases hA
  case ref p => exact ref p hl
  case x p => exact ref p hl
  case a128aOpt64 => exact ⟨Opt.Opt64.repOK.encrypt hl, Opt.Opt64.repOK.decrypt hl⟩
  case a128aOpt32 => exact ⟨Opt.Opt32.repOK.encrypt hl, Opt.Opt32.repOK.decrypt hl⟩
  case a128aOpt32Compact => exact ⟨Opt.Opt32.repOKCompact.encrypt hl, Opt.Opt32.repOKCompact.decrypt hl⟩
  case a128aOpt32Tiny => exact ⟨Opt.Opt32.repOKTiny.encrypt hl, Opt.Opt32.repOKTiny.decrypt hl⟩
  case a128aOpt32Stp => exact ⟨Opt.Opt32.stpOK.encrypt hl, Opt.Opt32.stpOK.decrypt hl⟩
  case a128aOpt8 => exact ⟨Opt.Opt8.repOK.encrypt hl, Opt.Opt8.repOK.decrypt hl⟩
  case a128aOpt8Tiny => exact ⟨Opt.Opt8.repOKTiny.encrypt hl, Opt.Opt8.repOKTiny.decrypt hl⟩
  case a128aBi8 => exact ⟨Opt.Bi8.repOK.encrypt hl, Opt.Bi8.repOK.decrypt hl⟩
  case a128aBi32 => exact ⟨Opt.Bi32.repOK.encrypt hl, Opt.Bi32.repOK.decrypt hl⟩
  case a128aBi32Compact => exact ⟨Opt.Bi32.repOKCompact.encrypt hl, Opt.Bi32.repOKCompact.decrypt hl⟩
  case a128aBi32Stp => exact ⟨Opt.Bi32.stpOK.encrypt hl, Opt.Bi32.stpOK.decrypt hl⟩
  case a128aBi32Armv6 => exact ⟨Opt.Armv6.repOK.encrypt hl, Opt.Armv6.repOK.decrypt hl⟩
  case a128aBi32Armv6m => exact ⟨Opt.Armv6m.repOK.encrypt hl, Opt.Armv6m.repOK.decrypt hl⟩
  case a128aBi32Armv6mCompact => exact ⟨Opt.Armv6m.repOKCompact.encrypt hl, Opt.Armv6m.repOKCompact.decrypt hl⟩
  case a128aBi32Armv6mStp => exact ⟨Opt.Armv6m.stpOK.encrypt hl, Opt.Armv6m.stpOK.decrypt hl⟩
  case a128aBi32Armv7m => exact ⟨Opt.Armv7m.repOK.encrypt hl, Opt.Armv7m.repOK.decrypt hl⟩
  case a128Opt64 d =>
    have O := cfgOK_linked hl d
    exact ⟨encrypt_a128 hl (I := A128.Opt64.impl _) (A128.Opt64.macOK O) (A128.Opt64.encOK O) rfl,
      decrypt_a128 hl (I := A128.Opt64.impl _) (A128.Opt64.macOK O) (A128.Opt64.encOK O)⟩
  case a128Opt32 | a128Opt32Armv67m =>
    have O := permOK_linked hl
    exact ⟨encrypt_a128 hl (I := A128.Opt32.impl _) (A128.Opt32.macOK O) (A128.Opt32.encOK O) rfl,
      decrypt_a128 hl (I := A128.Opt32.impl _) (A128.Opt32.macOK O) (A128.Opt32.encOK O)⟩
  case k128aOpt64 =>
    have O := primsK128a_linked hl K128.Opt64.primsK128a_ok
    exact ⟨Target.encryptOK_k128 O K128.Opt64.ext_le rfl ⟨8, rfl⟩, Target.decryptOK_k128 O K128.Opt64.ext_le⟩
  case k128Opt64 =>
    have O := primsK128_linked hl K128.Opt64.primsK128_ok
    exact ⟨Target.encryptOK_k128 O K128.Opt64.ext_le rfl ⟨8, rfl⟩, Target.decryptOK_k128 O K128.Opt64.ext_le⟩
  case k128aAvx512 j =>
    have O := primsK128a_linked hl (K128.Avx.prims_ok j)
    exact ⟨Target.encryptOK_k128 O (Nat.le_add_right · 16) rfl ⟨16, rfl⟩, Target.decryptOK_k128 O (Nat.le_add_right · 16)⟩
  case k128aOpt32Armv6m =>
    have O := armK128a_linked hl K128.Arm.primsK128aV6_ok rfl
    exact ⟨Target.encryptOK_k128arm O, Target.decryptOK_k128arm O⟩
  case k128aOpt32Armv7m =>
    have O := armK128a_linked hl K128.Arm.primsK128aV7_ok rfl
    exact ⟨Target.encryptOK_k128arm O, Target.decryptOK_k128arm O⟩
  case k128Opt32Armv6m =>
    have O := armK128_linked hl K128.Arm.primsK128V6_ok rfl
    exact ⟨Target.encryptOK_k128arm O, Target.decryptOK_k128arm O⟩
  case k128Opt32Armv7m =>
    have O := armK128_linked hl K128.Arm.primsK128V7_ok rfl
    exact ⟨Target.encryptOK_k128arm O, Target.decryptOK_k128arm O⟩

end Model
