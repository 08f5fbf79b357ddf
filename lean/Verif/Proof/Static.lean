import Verif.Proof.Calls
import Verif.Proof.Threads
/-!
# What calls leave in the global variables
-/

namespace C

/-- Code that does not use global variables leaves them as they are. -/
theorem NoGlob.runs {f : CM α} (h : NoGlob f) {e : Env} {s s' : St} {a : α} (hr : Runs f e s a s') :
    s'.s0 = s.s0 ∧ s'.s1 = s.s1 := by
  obtain ⟨tr, hr⟩ := hr
  induction h generalizing s tr with
  | ret => simp only [run] at hr; cases hr; exact ⟨rfl, rfl⟩
  | ub => exact nomatch hr
  | @load al w p k _ ih =>
    rw [run] at hr
    by_cases h1 : canRead e p w = true
    · rw [if_pos h1] at hr
      by_cases h2 : alignedOk e p al = true
      · rw [if_pos h2] at hr
        cases hx : run (k (bytesAt s p w)) e s with
        | ok b t tr' => rw [hx] at hr; cases hr; exact ih _ (by simp) _ hx
        | ub u => rw [hx] at hr; exact nomatch hr
      · rw [if_neg h2] at hr; exact nomatch hr
    · rw [if_neg h1] at hr; exact nomatch hr
  | @store al p bs k _ ih =>
    rw [run] at hr
    by_cases h1 : canRead e p bs.length = true
    · rw [if_pos h1] at hr
      by_cases h2 : alignedOk e p al = true
      · rw [if_pos h2] at hr
        by_cases h3 : canWrite e p bs.length = true
        · rw [if_pos h3] at hr
          cases hx : run k e (putBytes s p bs) with
          | ok b t tr' => rw [hx] at hr; cases hr; exact ih (s := putBytes s p bs) _ hx
          | ub u => rw [hx] at hr; exact nomatch hr
        · rw [if_neg h3] at hr; exact nomatch hr
      · rw [if_neg h2] at hr; exact nomatch hr
    · rw [if_neg h1] at hr; exact nomatch hr
  | @branch b k _ ih =>
    rw [run] at hr
    cases hx : run k e s with
    | ok b t tr' => rw [hx] at hr; cases hr; exact ih _ hx
    | ub u => rw [hx] at hr; exact nomatch hr

end C

namespace Model.Opt.Stp
open C Spec
variable {D : StpPrims} {φ : BitVec 64 → BitVec 64}

/-- The global variables after `isap_mac`. -/
def left (φ : BitVec 64 → BitVec 64) (N A C : List Byte) : BitVec 64 × BitVec 64 :=
  (φ (macSt Ascon.p isapA128a N A C).x0, φ (macSt Ascon.p isapA128a N A C).x1)

theorem enc_left (O : StpOK D φ Spec.Ascon.p) {e : Env} {s s' : St} {a : EncArgs} {r : Int} (V : ValidEnc e a) (B : Limits.byWords.Enc e a)
    (h : Runs ((aead D).encrypt a) e s r s') :
    (s'.s0, s'.s1) = left φ (bytesAt s a.npub 16) (bytesAt s a.ad a.adlen)
      (isapA128a.enc (bytesAt s a.k 16) (bytesAt s a.npub 16) (bytesAt s a.m a.mlen)) := by
  obtain ⟨u, s1, h1, h⟩ := runs_bind_inv h
  have e1 := ((runs_storeLen V.clen).det h1).2
  obtain ⟨u2, s2, h2, h⟩ := runs_bind_inv h
  have b1 : ∀ p n, Disjoint a.clen 8 p n → bytesAt s1 p n = bytesAt s p n := by
    intro p n h
    rw [← e1, bytesAt_putBytes_disjoint _ _ _ _ _ (by simpa using h.symm)]
  have hk := b1 _ _ V.clen_k
  have hN := b1 _ _ V.clen_npub
  have hA := b1 _ _ V.clen_ad
  have hM := b1 _ _ V.clen_m
  generalize hX : isapA128a.enc (bytesAt s a.k 16) (bytesAt s a.npub 16) (bytesAt s a.m a.mlen) = X
  have hXl : X.length = a.mlen := by rw [← hX]; simp
  have e2 : s2 = putBytes s1 a.c X := by
    by_cases h0 : a.mlen > 0
    · have he := encOK O.rep e s1 a.k a.npub a.m a.mlen a.c B.k B.npub B.m B.c B.mlen_lt V.k V.npub V.m (V.c.mono (by omega)) V.c_m
      rw [hk, hN, hM, show (PQ Ascon.p) = isapA128a from rfl, hX] at he
      exact ((runs_ifThen_true h0 he).det h2).2.symm
    · have : X = [] := by apply List.length_eq_zero_iff.1; omega
      rw [this, putBytes_nil]
      exact ((runs_ifThen_false h0).det h2).2.symm
  have b2 : ∀ p n, Disjoint a.c (a.mlen + 16) p n → bytesAt s2 p n = bytesAt s1 p n := by
    intro p n h
    rw [e2]
    exact bytesAt_putBytes_disjoint _ _ _ _ _ (h.symm.mono (Nat.le_refl _) (by omega))
  obtain ⟨tag, s3, h3, h⟩ := runs_bind_inv h
  have hm := runs_isapMacA O s2 B.k B.npub B.ad B.c V.k V.npub V.ad (V.c.readable.mono (show a.mlen ≤ a.mlen + 16 by omega))
  have hC : bytesAt s2 a.c a.mlen = X := by rw [e2, ← hXl, bytesAt_putBytes_same]
  rw [b2 _ _ V.c_k, b2 _ _ V.c_npub, b2 _ _ V.c_ad, hk, hN, hA, hC] at hm
  have e3 := (hm.det h3).2
  have hg : s'.s0 = s3.s0 ∧ s'.s1 = s3.s1 := by
    refine NoGlob.runs ?_ h
    exact (noGlob_forN (fun i x => .store .ret) _ _ _).bind fun _ => .ret
  rw [hg.1, hg.2, ← e3]
  rfl

theorem noGlob_isapEnc (P : PrimsShape D.toPrims) (k npub m : Ptr) (mlen : Nat) (c : Ptr) :
    NoGlob (isapEnc D.toPrims k npub m mlen c) :=
  (sim_isapEnc (gl := false) P k npub m mlen c).noGlob

theorem dec_left (O : StpOK D φ Spec.Ascon.p) (P : PrimsShape D.toPrims) {e : Env} {s s' : St} {a : DecArgs} {r : Int} (V : ValidDecIn e a)
    (B : Limits.byWords.Dec e a) (h : Runs ((aead D).decrypt a) e s r s') :
    (s'.s0, s'.s1) = left φ (bytesAt s a.npub 16) (bytesAt s a.ad a.adlen) (bytesAt s a.c (a.clen - 16)) := by
  obtain ⟨Bc, Bm, Blt⟩ := And.intro B.c (And.intro B.m B.clen_lt)
  generalize hl : a.clen - 16 = l at *
  have hge := V.clen_ge
  have hlt := V.clen_lt
  have hlcell : BitVec.ofNat 64 (a.clen + (2 ^ 64 - 16)) = BitVec.ofNat 64 l := by
    apply BitVec.eq_of_toNat_eq
    simp only [BitVec.toNat_ofNat]
    rw [show a.clen + (2 ^ 64 - 16) = l + 2 ^ 64 by omega, Nat.add_mod_right]
  obtain ⟨u, s1, h1, h⟩ := runs_bind_inv h
  have e1 := ((runs_storeLen V.mlen).det h1).2
  rw [hlcell] at e1
  have hcell : bytesAt s1 a.mlen 8 = toLe64 (BitVec.ofNat 64 l) := by
    rw [← e1, bytesAt_putBytes_same' _ _ _ (by simp)]
  have b1 : ∀ p n, Disjoint a.mlen 8 p n → bytesAt s1 p n = bytesAt s p n := by
    intro p n h
    rw [← e1, bytesAt_putBytes_disjoint _ _ _ _ _ (by simpa using h.symm)]
  have hC : bytesAt s1 a.c l = bytesAt s a.c l := b1 _ _ (V.mlen_c.mono (Nat.le_refl _) (by omega))
  have hloadLen : Runs (loadLen a.mlen) e s1 l s1 := runs_loadLen V.mlen (by omega) hcell rfl
  obtain ⟨l', s1', h2, h⟩ := runs_bind_inv h
  obtain ⟨el, es⟩ := hloadLen.det h2
  subst el; subst es
  obtain ⟨tag, s2, h3, h⟩ := runs_bind_inv h
  have hm := runs_isapMacA O s1 B.k B.npub B.ad Bc V.k V.npub V.ad (V.c.mono (show l ≤ a.clen by omega))
  rw [b1 _ _ V.mlen_npub, b1 _ _ V.mlen_ad, hC] at hm
  obtain ⟨et, e2⟩ := hm.det h3
  have htl : tag.length = 16 := by
    rw [← et]; exact Spec.Params.length_mac (isAscon (q := Ascon.p)).wf _ _ (by simp) (by simp)
  have b2 : ∀ p n, bytesAt s2 p n = bytesAt s1 p n := bytesAt_mem_congr (by rw [← e2]; rfl)
  have hloadLen2 : Runs (loadLen a.mlen) e s2 l s2 :=
    runs_loadLen V.mlen (by omega) ((b2 _ _).trans hcell) rfl
  obtain ⟨T', s3, h4, h⟩ := runs_bind_inv h
  obtain ⟨e4, e3⟩ := (runs_readTag hloadLen2 (show Readable e (a.c + l) 16 from V.c.add (by omega))).det h4
  have hT' : T'.length = 16 := by rw [← e4]; simp
  subst e3
  obtain ⟨n, s3, h5, h⟩ := runs_bind_inv h
  obtain ⟨n', hp, _⟩ := runs_pvp O e s2 htl hT' (S := macSt Ascon.p isapA128a (bytesAt s a.npub 16) (bytesAt s a.ad a.adlen) (bytesAt s a.c l))
    (by rw [← e2]; rfl) (by rw [← e2]; rfl)
  have e5 := (hp.det h5).2
  subst e5
  have hg : s'.s0 = s2.s0 ∧ s'.s1 = s2.s1 := by
    refine NoGlob.runs ?_ h
    refine noGlob_if ?_ .ret
    refine (noGlob_loadLen _).bind fun _ => ?_
    refine NoGlob.bind (noGlob_if ?_ .ret) fun _ => .ret
    exact (noGlob_loadLen _).bind fun _ => noGlob_isapEnc P _ _ _ _ _
  rw [hg.1, hg.2, ← e2]
  rfl

end Model.Opt.Stp
