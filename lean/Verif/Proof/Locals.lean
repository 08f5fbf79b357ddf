import Verif.Model.Locals
import Verif.Proof.Calls
/-!
# Uninitialised local variables do not matter
-/

namespace Model
open C

theorem bind_congr' {α β : Type} {f : CM α} {g g' : α → CM β} (h : ∀ a, g a = g' a) : f >>= g = f >>= g' :=
  congrArg (f >>= ·) (funext h)

theorem branch_bind {α : Type} (b : Bool) (g : Bool → CM α) : branch b >>= g = .branch b (g b) := rfl

/-! ## The optimized versions: the programs are the same -/

theorem Opt.rk_bind {α : Type} (D : Prims) (k : Ptr) (iv : List Byte) (y : Src) (out out' : State) (g : State → CM α)
    (hg : ∀ s s' : State, s.x0 = s'.x0 → s.x1 = s'.x1 → s.x2 = s'.x2 → g s = g s') :
    isapRk D k iv y out 24 >>= g = isapRk D k iv y out' 24 >>= g := by
  unfold isapRk
  simp only [bind_assoc']
  refine bind_congr' fun k0 => bind_congr' fun k1 => bind_congr' fun s => bind_congr' fun s => bind_congr' fun s => ?_
  exact congrArg (CM.branch true) (hg _ _ rfl rfl rfl)

theorem Opt.isapEncFrom_eq (u : Locals) (D : Prims) : isapEncFrom u D = isapEnc D := by
  funext k npub m mlen c
  unfold isapEncFrom isapEnc
  refine rk_bind D _ _ _ _ _ _ fun s s' h0 h1 h2 => ?_
  rw [h0, h1, h2]

theorem Opt.implFrom_eq (u : Locals) (D : Prims) : implFrom u D = impl D := by
  unfold implFrom
  rw [isapEncFrom_eq]
  rfl

theorem Opt.Stp.aeadFrom_eq (u : Locals) (D : StpPrims) : aeadFrom u D = aead D := by
  unfold aeadFrom
  rw [isapEncFrom_eq]
  rfl

theorem A128.Opt64.rk_bind {α : Type} (D : Cfg) (k : Ptr) (iv : List Byte) (y : Src) (out out' : Opt.State) (g : Opt.State → CM α)
    (hg : ∀ s s' : Opt.State, s.x0 = s'.x0 → s.x1 = s'.x1 → s.x2 = s'.x2 → g s = g s') :
    isapRk D k iv y out 24 >>= g = isapRk D k iv y out' 24 >>= g := by
  unfold isapRk
  simp only [bind_assoc']
  refine bind_congr' fun k0 => bind_congr' fun k1 => bind_congr' fun s => bind_congr' fun yb => ?_
  exact congrArg (CM.branch true) (hg _ _ rfl rfl rfl)

theorem A128.Opt64.isapEncFrom_eq (u : Locals) (D : Cfg) : isapEncFrom u D = isapEnc D := by
  funext k npub m mlen c
  unfold isapEncFrom isapEnc
  refine rk_bind D _ _ _ _ _ _ fun s s' h0 h1 h2 => ?_
  rw [h0, h1, h2]

theorem A128.Opt64.implFrom_eq (u : Locals) (D : Cfg) : implFrom u D = impl D := by
  unfold implFrom
  rw [isapEncFrom_eq]
  rfl

theorem A128.Avx.aeadFrom_eq (u : Locals) (d : DataModel) : aeadFrom u d = aead d := by
  have h : startFrom u d = start d := by
    funext k npub ad adlen
    unfold startFrom start
    refine Opt64.rk_bind _ _ _ _ _ _ _ fun s s' h0 h1 h2 => ?_
    rw [h0, h1, h2]
  have h' : isapMacEncFrom u d = isapMacEnc d := by
    funext k npub ad adlen c m mlen
    unfold isapMacEncFrom
    rw [h]
    rfl
  unfold aeadFrom
  rw [h', Opt64.implFrom_eq]
  rfl

/-! ## The reference code -/

namespace Ref
variable {G : Cfg} {P : Spec.Params}

theorem encOKFrom (u : Locals) (O : CfgOK G P) : EncOK P .byBytes (isapEncFrom u G) := by
  intro e s k npub m mlen c a1 a2 a3 a4 a5 hk hnp hm hc hov
  have h := encOK O e s k npub m mlen c a1 a2 a3 a4 a5 hk hnp hm hc hov
  have hn := O.wf.n_ge
  have hkl := Spec.Params.length_rk O.wf (K := bytesAt s k 16) (Y := bytesAt s npub 16) 3 (P.n - 16) (by simp) (by simp) (by omega)
  unfold isapEnc at h
  unfold isapEncFrom
  rw [O.n] at *
  obtain ⟨key, s1, h1, h⟩ := runs_bind_inv h
  have hrk := runs_isapRk (s := s) O 3 hk (src := .ext npub) hnp (outlen := P.n - 16) (by omega)
  obtain ⟨ek, es⟩ := hrk.det h1
  subst es
  simp only [Src.bytes] at ek
  refine runs_bind h1 ?_
  have hlen : key.length = P.n - 16 := by rw [← ek]; exact hkl
  obtain ⟨st, s2, h2, h⟩ := runs_bind_inv h
  have ho : ∀ j : List Byte, j.length = 16 →
      Runs (overwriteBytes G (key ++ j) (.ext npub) (P.n - 16) 16) e s (key ++ bytesAt s npub 16) s := by
    intro j hj
    refine runs_eq (runs_overwrite O (src := .ext npub) ?_ hnp (by omega) (by omega)) ?_
    · rw [List.length_append, hlen, hj]; omega
    · simp only [Src.bytes]
      rw [List.take_left' hlen, List.drop_eq_nil_of_le (by simp [hlen, hj]), List.append_nil]
  obtain ⟨e2, es⟩ := (ho _ (by simp)).det h2
  subst es
  refine runs_bind (ho _ (by simp)) ?_
  rw [e2]
  exact h

end Ref

namespace Target

/-- Encryption, whatever uninitialised variables contain. -/
theorem encryptOKFrom (u : Locals) (t : Target) : EncryptOK t.spec t.limits (t.aeadFrom u).encrypt := by
  cases t
  case ref p =>
    exact Model.encryptOK p.cfgOK.wf (Nat.le_add_right · 16) (Ref.macOK p.cfgOK).mem (Ref.encOKFrom u p.cfgOK) rfl ⟨16, rfl⟩
  case x p =>
    exact Model.encryptOK p.cfgOK.wf (Nat.le_add_right · 16) (Ref.macOK p.cfgOK).mem (Ref.encOKFrom u p.cfgOK) rfl ⟨16, rfl⟩
  all_goals
    rw [aeadFrom]
    try rw [Opt.implFrom_eq]
    try rw [Opt.Stp.aeadFrom_eq]
    try rw [A128.Opt64.implFrom_eq]
    try rw [A128.Avx.aeadFrom_eq]
    exact Target.encryptOK _

/-- Decryption, whatever uninitialised variables contain. -/
theorem decryptOKFrom (u : Locals) (t : Target) : DecryptOK t.spec t.limits t.acc (t.aeadFrom u).decrypt := by
  cases t
  case ref p => exact Model.decryptOK p.cfgOK.wf (Nat.le_add_right · 16) (Ref.macOK p.cfgOK) (Ref.encOKFrom u p.cfgOK)
  case x p => exact Model.decryptOK p.cfgOK.wf (Nat.le_add_right · 16) (Ref.macOK p.cfgOK) (Ref.encOKFrom u p.cfgOK)
  all_goals
    rw [aeadFrom]
    try rw [Opt.implFrom_eq]
    try rw [Opt.Stp.aeadFrom_eq]
    try rw [A128.Opt64.implFrom_eq]
    try rw [A128.Avx.aeadFrom_eq]
    exact Target.decryptOK _

end Target
end Model
