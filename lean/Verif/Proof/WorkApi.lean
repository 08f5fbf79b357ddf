import Verif.Proof.Work
import Verif.Proof.OnceEnc
/-!
# The number of steps of the API functions
-/

namespace C

variable {α β : Type}

/-- If `f` ends normally when started in `s`, then after at most `n` steps. -/
def EndsIn (f : CM α) (e : Env) (s : St) (n : Nat) : Prop := ∀ r s' tr, run f e s = .ok r s' tr → tr.length ≤ n

theorem Steps.endsIn {f : CM α} {n : Nat} {Q : α → Prop} (h : Steps f n Q) (e : Env) (s : St) : EndsIn f e s n := fun _ _ _ hr => h.trace hr

theorem EndsIn.le {f : CM α} {e : Env} {s : St} {n m : Nat} (h : EndsIn f e s n) (hn : n ≤ m) : EndsIn f e s m :=
  fun r s' tr hr => Nat.le_trans (h r s' tr hr) hn

theorem EndsIn.bind {f : CM α} {g : α → CM β} {e : Env} {s : St} {n m : Nat} (h : EndsIn f e s n)
    (hg : ∀ a s1, Runs f e s a s1 → EndsIn (g a) e s1 m) : EndsIn (f >>= g) e s (n + m) := by
  intro r s' tr hr
  rw [run_bind] at hr
  cases hf : run f e s with
  | ub u => rw [hf] at hr; exact nomatch hr
  | ok a s1 t1 =>
    rw [hf] at hr
    simp only [Out.andThen] at hr
    cases hg1 : run (g a) e s1 with
    | ub u => rw [hg1] at hr; exact nomatch hr
    | ok b s2 t2 =>
      rw [hg1] at hr
      cases hr
      rw [List.length_append]
      exact Nat.add_le_add (h a s1 t1 hf) (hg a s1 ⟨t1, hf⟩ _ _ _ hg1)

/-- A part that does not store. -/
theorem EndsIn.pre {f : CM α} {g : α → CM β} {e : Env} {s : St} {n m : Nat} {Q R : α → Prop} (h : Steps f n Q)
    (ho : Once f (fun _ _ => False) R) (hg : ∀ a s1, Runs f e s a s1 → s1.mem = s.mem → EndsIn (g a) e s1 m) :
    EndsIn (f >>= g) e s (n + m) :=
  (h.endsIn e s).bind fun a s1 h1 => hg a s1 h1 (funext fun b => funext fun o => ((ho.tidy e s) a s1 h1).1 b o id)

end C

namespace Model
open C

theorem steps_storeTag (al : Nat) (p : Ptr) (tag : List Byte) : Steps (storeTag al p tag) 33 Triv :=
  Steps.le (steps_for (k := 1) (fun _ _ => steps_store ..) _ _ _) (by have := Nat.div_le_self 16 al; omega)

theorem steps_encrypt {I : Impl} (W : Work I) (c clen m : Ptr) (mlen : Nat) (ad : Ptr) (adlen : Nat) (nsec npub k : Ptr) :
    Steps (encrypt I c clen m mlen ad adlen nsec npub k) (24 * (adlen + mlen) + 8200) Triv :=
  Steps.le ((steps_storeLen _ _).bind fun _ => (steps_ifThen fun _ => W.enc _ _ _ _ _).bind fun _ => (W.mac _ _ _ _ _ _).bind fun _ =>
    (steps_storeTag _ _ _).map) (by omega)

theorem endsIn_finish {enc : Nat → CM Unit} {mlen : Ptr} {N n : Nat} (hE : Steps (enc N) n Triv) {e : Env} {s : St}
    (h : (le64 (bytesAt s mlen 8)).toNat = N) (b : Bool) :
    EndsIn (branch b >>= fun ok => if ok then (loadLen mlen >>= fun l => ifThen (l > 0) (loadLen mlen >>= enc) >>= fun _ => pure (0 : Int))
      else pure (-1)) e s (n + 4) := by
  have hb : ∀ b, Once (branch b) (fun _ _ => False) fun _ => True := fun b => trivial
  have hs : ∀ b, Steps (branch b) 1 Triv := fun b => ⟨Nat.one_pos, trivial⟩
  refine EndsIn.le (EndsIn.pre (m := n + 3) (hs b) (hb b) fun ok s1 h1 hm => ?_) (by omega)
  cases ok
  · exact ((Steps.pure _).endsIn e s1).le (Nat.zero_le _)
  · refine EndsIn.le (EndsIn.pre (m := n + 2) (steps_loadLen _) (once_loadLen mlen) fun l s2 h2 hm2 => ?_) (by omega)
    refine EndsIn.le (EndsIn.bind (n := n + 2) (m := 0) ?_ fun _ s3 _ => (Steps.pure _).endsIn e s3) (by omega)
    unfold ifThen
    refine EndsIn.le (EndsIn.pre (m := n + 1) (hs _) (hb _) fun c s3 h3 hm3 => ?_) (by omega)
    cases c
    · exact ((Steps.pure _).endsIn e s3).le (Nat.zero_le _)
    · refine EndsIn.le (EndsIn.pre (m := n) (steps_loadLen _) (once_loadLen mlen) fun l s4 h4 hm4 => ?_) (by omega)
      have := runs_loadLen_inv h4
      have hb : bytesAt s3 mlen 8 = bytesAt s mlen 8 := by simp only [bytesAt, hm3, hm2, hm]
      rw [hb, h] at this
      subst this
      exact hE.endsIn e s4

theorem endsIn_decrypt {I : Impl} (W : Work I) {gl : Bool}
    (P : ∀ k npub ad adlen c clen, Sim false gl SameLen (I.mac k npub ad adlen c clen) (I.mac k npub ad adlen c clen))
    (m mlen nsec c : Ptr) (clen : Nat) (ad : Ptr) (adlen : Nat)
    (npub k : Ptr) (h1 : 16 ≤ clen) (h2 : clen < 2 ^ 64) (e : Env) (s : St) :
    EndsIn (decrypt I m mlen nsec c clen ad adlen npub k) e s (24 * (adlen + clen) + 8200) := by
  unfold decrypt
  refine EndsIn.le (EndsIn.bind ((steps_storeLen mlen _).endsIn e s) (m := 1 + (12 * (adlen + (clen - 16)) + 4000 + (49 +
    (12 * (clen - 16) + 4000 + 4)))) fun _ s1 hs => ?_) (by omega)
  obtain ⟨_, tr, hs⟩ := Runs.store_inv hs
  cases hs
  have hl := dec_len h1 h2 s mlen
  generalize putBytes s mlen _ = s1 at hl
  refine EndsIn.pre (steps_loadLen mlen) (once_loadLen mlen) fun l s2 hl2 hm2 => ?_
  have e2 := runs_loadLen_inv hl2
  rw [hl] at e2
  subst e2
  refine EndsIn.pre (W.mac k npub ad adlen c _) (P k npub ad adlen c _).once fun tag s3 _ hm3 => ?_
  refine EndsIn.pre (n := 49) (steps_for (k := 2) (fun i cnt => ?_) 16 0 0) (Once.loop (fun i cnt => ?_) 16 0 0) fun cnt s4 _ hm4 => ?_
  · exact (steps_loadLen _).bind fun _ => (steps_load8 _).map
  · exact (once_loadLen mlen).val fun l _ => Once.pre (gl := false) (sim_load8 _) fun _ => trivial
  exact endsIn_finish (W.enc k npub c _ m) (by simp only [bytesAt, hm4, hm3, hm2]; exact hl) _

/-! ## The stp variants -/

namespace Opt.Stp
variable {D : StpPrims}

/-- The permutations make at most 12 steps. -/
structure StpWork (D : StpPrims) : Prop where
  prims : PermWork D.toPrims
  pPVP : ∀ s, Steps (D.pPVP s) 12 Triv

theorem StpWork.via {r : Nat → State → CM State} (hr : ∀ n s, Steps (r n s) 12 Triv) (f g h : BitVec 64 → BitVec 64) :
    StpWork (viaProunds7 r f g h) :=
  ⟨PermWork.via hr f g h, hr 7⟩

variable (P : StpWork D)
include P

theorem work : Work (impl D) where
  enc k npub m mlen c := (steps_isapEnc P.prims k npub m mlen c).le (by omega)
  mac k npub ad adlen c clen :=
    Steps.le ((steps_macAbsorb P.prims _ _ _ _ _).bind fun _ => (steps_setg _ _).bind fun _ => (steps_setg _ _).bind fun _ =>
      (steps_isapRk P.prims _ _ _ _ _).bind fun _ => (P.prims.pH _).map) (by omega)

theorem steps_pvp (T Tstar : List Byte) : Steps (pvp D T Tstar) 46 Triv := by
  have h : ∀ T, Steps (pvpHalf D T) 14 Triv := fun T => (steps_getg _).bind (m := 13) fun _ => (steps_getg _).bind (m := 12) fun _ => P.pPVP _
  exact Steps.le ((h _).bind fun _ => (h _).bind fun _ => (steps_for (k := 0) (fun _ _ => Steps.pure _) _ _ _).bind fun _ =>
    steps_for (k := 0) (fun _ _ => Steps.pure _) _ _ _) (by decide)

theorem endsIn_decrypt (S : StpShape D) (m mlen nsec c : Ptr) (clen : Nat) (ad : Ptr) (adlen : Nat)
    (npub k : Ptr) (h1 : 16 ≤ clen) (h2 : clen < 2 ^ 64) (e : Env) (s : St) :
    EndsIn (Stp.decrypt D m mlen nsec c clen ad adlen npub k) e s (24 * (adlen + clen) + 8200) := by
  unfold Stp.decrypt
  refine EndsIn.le (EndsIn.bind ((steps_storeLen mlen _).endsIn e s) (m := 1 + (12 * (adlen + (clen - 16)) + 4000 + (49 + (46 +
    (12 * (clen - 16) + 4000 + 4))))) fun _ s1 hs => ?_) (by omega)
  obtain ⟨_, tr, hs⟩ := Runs.store_inv hs
  cases hs
  have hl := dec_len h1 h2 s mlen
  generalize putBytes s mlen _ = s1 at hl
  refine EndsIn.pre (steps_loadLen mlen) (once_loadLen mlen) fun l s2 hl2 hm2 => ?_
  have e2 := runs_loadLen_inv hl2
  rw [hl] at e2
  subst e2
  refine EndsIn.pre ((work P).mac k npub ad adlen c _) ((Stp.shape S.prims).mac k npub ad adlen c _).once fun tag s3 _ hm3 => ?_
  refine EndsIn.pre (n := 49) (steps_for (k := 2) (fun i cnt => ?_) 16 0 []) (Once.loop (fun i cnt => ?_) 16 0 []) fun T s4 _ hm4 => ?_
  · exact (steps_loadLen _).bind fun _ => (steps_load8 _).map
  · exact (once_loadLen mlen).val fun l _ => Once.pre (gl := false) (sim_load8 _) fun _ => trivial
  refine EndsIn.pre (steps_pvp P tag T) (Stp.sim_pvp S.pvp _ tag _ T).once fun cnt s5 _ hm5 => ?_
  exact endsIn_finish ((work P).enc k npub c _ m) (by simp only [bytesAt, hm5, hm4, hm3, hm2]; exact hl) _

end Opt.Stp

/-! ## All implementations -/

/-- What is needed of an implementation. -/
inductive AeadWork (L : Limits) : Aead → Prop where
  | common {I : Impl} : Work I → OnceOK false L I → AeadWork L I.aead
  | fused (d : DataModel) : L.maxLen ≤ 2 ^ 63 → AeadWork L (A128.Avx.aead d)
  | stp {D : Opt.StpPrims} : Opt.Stp.StpWork D → Opt.StpShape D → AeadWork L (Opt.Stp.aead D)

theorem Target.hashWork {t : Target} {D : Opt.Prims} (h : t.hashPrims = some D) : Opt.PermWork D := by
  cases t <;> cases h
  case a128aOpt32Stp => exact (Opt.Stp.StpWork.via (Opt.steps_switch7 _ _ _ _) _ _ _).prims
  case a128aBi32Stp => exact (Opt.Stp.StpWork.via (Opt.steps_switch7 _ _ _ _) _ _ _).prims
  case a128aBi32Armv6mStp => exact (Opt.Stp.StpWork.via (Opt.steps_switch7 _ _ _ _) _ _ _).prims
  all_goals first
    | exact Opt.PermWork.unrolled _ _ _ _ _ _ _
    | exact Opt.PermWork.tiny _ _ _ _
    | exact Opt.PermWork.via (Opt.steps_switch _ _ _ _) _ _ _

theorem Target.work (t : Target) : AeadWork t.limits t.aead := by
  cases t
  case ref p => exact .common (Ref.work (Ref.permWork p)) (Ref.onceOK p.permShape _)
  case x p => exact .common (Ref.work (Ref.permWork p)) (Ref.onceOK p.permShape _)
  case a128aOpt32Stp => exact .stp (Opt.Stp.StpWork.via (Opt.steps_switch7 _ _ _ _) _ _ _) (Opt.switch7_shape _ _ _ _ _ _ _)
  case a128aBi32Stp => exact .stp (Opt.Stp.StpWork.via (Opt.steps_switch7 _ _ _ _) _ _ _) (Opt.switch7_shape _ _ _ _ _ _ _)
  case a128aBi32Armv6mStp => exact .stp (Opt.Stp.StpWork.via (Opt.steps_switch7 _ _ _ _) _ _ _) (Opt.switch7_shape _ _ _ _ _ _ _)
  case a128aAvx512 d => exact .fused d (Nat.min_le_left ..)
  case a128Opt64 d => exact .common (A128.Opt64.work _) (A128.Opt64.onceOK _ (Nat.le_refl d.ulong))
  case a128Opt32 => exact .common (A128.Opt32.work A128.Opt32.permWork) (A128.Opt32.onceOK A128.Opt32.primsShape _)
  case a128Opt32Armv67m => exact .common (A128.Opt32.work A128.Opt32.permWorkArm) (A128.Opt32.onceOK A128.Opt32.primsArmShape _)
  case k128aOpt64 => exact .common (K128.work K128.loadWork64a) (K128.onceOK K128.Opt64.primsK128aShape _)
  case k128Opt64 => exact .common (K128.work K128.loadWork64) (K128.onceOK K128.Opt64.primsK128Shape _)
  case k128aAvx512 j => exact .common (K128.work (K128.loadWorkAvx j)) (K128.onceOK (K128.Avx.primsShape j) _)
  case k128aOpt32Armv6m => exact .common (K128.Arm.work K128.Arm.permWorkAV6) (K128.Arm.onceOK K128.Arm.primsK128aV6Shape _)
  case k128aOpt32Armv7m => exact .common (K128.Arm.work K128.Arm.permWorkAV7) (K128.Arm.onceOK K128.Arm.primsK128aV7Shape _)
  case k128Opt32Armv6m => exact .common (K128.Arm.work K128.Arm.permWorkV6) (K128.Arm.onceOK K128.Arm.primsK128V6Shape _)
  case k128Opt32Armv7m => exact .common (K128.Arm.work K128.Arm.permWorkV7) (K128.Arm.onceOK K128.Arm.primsK128V7Shape _)
  all_goals refine .common (I := Opt.impl _) (Opt.work ?_) (Opt.onceOK ?_ _)
  all_goals first
    | exact Opt.PermWork.unrolled _ _ _ _ _ _ _
    | exact Opt.PermWork.tiny _ _ _ _
    | exact Opt.PermWork.via (Opt.steps_switch _ _ _ _) _ _ _
    | exact Opt.unrolled_shape _ _ _ _ _ _ _
    | exact Opt.switch_shape _ _ _ _ _ _ _
    | exact Opt.tiny_shape _ _ _ _

theorem Target.endsIn_encrypt (t : Target) (a : EncArgs) (h : a.mlen < t.limits.maxLen) (e : Env) (s : St) :
    EndsIn (t.aead.encrypt a) e s (24 * (a.adlen + a.mlen) + 8200) := by
  have W := t.work
  generalize t.aead = A at W
  generalize t.limits = L at W h
  cases W with
  | common W _ => exact (steps_encrypt W _ _ _ _ _ _ a.nsec _ _).endsIn e s
  | fused d hL =>
    exact (Steps.le ((steps_storeLen _ _).bind fun _ => (A128.Avx.steps_isapMacEnc d _ _ _ _ _ _ (Nat.lt_of_lt_of_le h hL)).bind fun _ =>
      (steps_storeTag _ _ _).map) (by omega)).endsIn e s
  | stp W _ => exact (steps_encrypt (Opt.Stp.work W) _ _ _ _ _ _ a.nsec _ _).endsIn e s

theorem Target.endsIn_decrypt (t : Target) (a : DecArgs) (h1 : 16 ≤ a.clen) (h2 : a.clen < 2 ^ 64) (e : Env) (s : St) :
    EndsIn (t.aead.decrypt a) e s (24 * (a.adlen + a.clen) + 8200) := by
  have W := t.work
  generalize t.aead = A at W
  generalize t.limits = L at W
  cases W with
  | common W P => exact Model.endsIn_decrypt W P.mac _ _ a.nsec _ _ _ _ _ _ h1 h2 e s
  | fused d hL => exact Model.endsIn_decrypt (gl := false) (A128.Opt64.work _) (A128.Opt64.shape (A128.Avx.cfg d)).mac _ _ a.nsec _ _ _ _ _ _ h1 h2 e s
  | stp W P => exact Opt.Stp.endsIn_decrypt W P _ _ a.nsec _ _ _ _ _ _ h1 h2 e s

theorem Target.endsIn_hash {t : Target} {f : Ptr → Ptr → Nat → CM Int} (h : t.hash = some f) (out inp : Ptr) (inlen : Nat) (e : Env)
    (s : St) : EndsIn (f out inp inlen) e s (2 * inlen + 110) := by
  unfold Target.hash at h
  cases hp : t.hashPrims with
  | none => rw [hp] at h; exact nomatch h
  | some D =>
    rw [hp] at h
    injection h with h
    subst h
    exact (Opt.steps_hash (t.hashWork hp) out inp inlen).endsIn e s

end Model
