import Verif.C.Threads
import Verif.Proof.Calls
import Verif.Test.Fast
/-!
# A schedule under which an stp variant rejects an honest ciphertext
-/

namespace C

theorem CM.bind_assoc (f : CM α) (g : α → CM β) (h : β → CM γ) : (f >>= g) >>= h = f >>= fun x => g x >>= h := by
  show CM.bind (CM.bind f g) h = CM.bind f fun x => CM.bind (g x) h
  induction f with
  | ret a => rfl
  | ub u => rfl
  | load al w p k ih => simp only [CM.bind, ih]
  | store al p bs k ih => simp only [CM.bind, ih]
  | branch b k ih => simp only [CM.bind, ih]
  | getg g k ih => simp only [CM.bind, ih]
  | setg g v k ih => simp only [CM.bind, ih]

/-- `n` steps of a thread alone. -/
def stepN : Nat → CM α → Env → St → CM α × St
  | 0, f, _, s => (f, s)
  | n + 1, f, e, s => stepN n (step f e s).1 e (step f e s).2

/-- From `(f, s)` the thread alone gets to `(g, s')`. -/
def Reach (e : Env) (f : CM α) (s : St) (g : CM α) (s' : St) : Prop := ∃ n, stepN n f e s = (g, s')

theorem stepN_add (m n : Nat) (f : CM α) (e : Env) (s : St) :
    stepN (m + n) f e s = stepN n (stepN m f e s).1 e (stepN m f e s).2 := by
  induction m generalizing f s with
  | zero => rw [Nat.zero_add]; rfl
  | succ m ih => rw [show m + 1 + n = (m + n) + 1 by omega, stepN, ih]; rfl

theorem Reach.trans {e : Env} {f g h : CM α} {s s' s'' : St} (h1 : Reach e f s g s') (h2 : Reach e g s' h s'') :
    Reach e f s h s'' := by
  obtain ⟨m, h1⟩ := h1
  obtain ⟨n, h2⟩ := h2
  exact ⟨m + n, by rw [stepN_add, h1, h2]⟩

/-- A run of the first part of a sequence, as steps. -/
theorem Reach.of_runs {f : CM α} {e : Env} {s s' : St} {a : α} (h : Runs f e s a s') (g : α → CM β) :
    Reach e (f >>= g) s (g a) s' := by
  obtain ⟨tr, h⟩ := h
  show Reach e (CM.bind f g) s (g a) s'
  induction f generalizing s tr with
  | ret x =>
    injection h with h1 h2
    subst h1; subst h2
    exact ⟨0, rfl⟩
  | ub u => exact nomatch h
  | load al w p k ih =>
    rw [run] at h
    split at h
    · split at h
      · rename_i h1 h2
        obtain ⟨tr', ho, rfl⟩ := Out.cons_ok h
        obtain ⟨n, hn⟩ := ih _ _ ho
        refine ⟨n + 1, ?_⟩
        simp only [stepN, CM.bind, step, if_pos h1, if_pos h2]
        exact hn
      · exact nomatch h
    · exact nomatch h
  | store al p bs k ih =>
    rw [run] at h
    split at h
    · split at h
      · split at h
        · rename_i h1 h2 h3
          obtain ⟨tr', ho, rfl⟩ := Out.cons_ok h
          obtain ⟨n, hn⟩ := ih _ ho
          refine ⟨n + 1, ?_⟩
          simp only [stepN, CM.bind, step, if_pos h1, if_pos h2, if_pos h3]
          exact hn
        · exact nomatch h
      · exact nomatch h
    · exact nomatch h
  | branch b k ih =>
    obtain ⟨tr', ho, rfl⟩ := Out.cons_ok h
    obtain ⟨n, hn⟩ := ih _ ho
    exact ⟨n + 1, hn⟩
  | getg x k ih =>
    obtain ⟨tr', ho, rfl⟩ := Out.cons_ok h
    obtain ⟨n, hn⟩ := ih _ _ ho
    exact ⟨n + 1, hn⟩
  | setg x v k ih =>
    obtain ⟨tr', ho, rfl⟩ := Out.cons_ok h
    obtain ⟨n, hn⟩ := ih _ ho
    exact ⟨n + 1, hn⟩

theorem interleave_append (e1 e2 : Env) (l l' : List Bool) (T : Threads α β) :
    interleave e1 e2 (l ++ l') T = interleave e1 e2 l' (interleave e1 e2 l T) := by
  induction l generalizing T with
  | nil => rfl
  | cons b l ih => cases b <;> exact ih _

theorem interleave_left (e1 e2 : Env) (n : Nat) (f : CM α) (g : CM β) (s : St) :
    interleave e1 e2 (List.replicate n true) ⟨f, g, s⟩ = ⟨(stepN n f e1 s).1, g, (stepN n f e1 s).2⟩ := by
  induction n generalizing f s with
  | zero => rfl
  | succ n ih => exact ih _ _

theorem interleave_right (e1 e2 : Env) (n : Nat) (f : CM α) (g : CM β) (s : St) :
    interleave e1 e2 (List.replicate n false) ⟨f, g, s⟩ = ⟨f, (stepN n g e2 s).1, (stepN n g e2 s).2⟩ := by
  induction n generalizing g s with
  | zero => rfl
  | succ n ih => exact ih _ _

/-- First thread, then the second one, then the first one again. -/
theorem interleave_three {e1 e2 : Env} {f f' f'' : CM α} {g g' : CM β} {s s1 s2 s3 : St} (h1 : Reach e1 f s f' s1)
    (h2 : Reach e2 g s1 g' s2) (h3 : Reach e1 f' s2 f'' s3) :
    ∃ l, interleave e1 e2 l ⟨f, g, s⟩ = ⟨f'', g', s3⟩ := by
  obtain ⟨n1, h1⟩ := h1
  obtain ⟨n2, h2⟩ := h2
  obtain ⟨n3, h3⟩ := h3
  refine ⟨List.replicate n1 true ++ List.replicate n2 false ++ List.replicate n3 true, ?_⟩
  rw [interleave_append, interleave_append, interleave_left (n := n1) (f := f), h1, interleave_right, h2, interleave_left, h3]

end C

namespace Model.Opt.Stp
open C Spec Spec.Ascon

variable {D : StpPrims} {φ : BitVec 64 → BitVec 64}

/-- Decryption up to the middle of the comparison. -/
theorem reach_middle (O : StpOK D φ Spec.Ascon.p) {e : Env} {s : St} {a : DecArgs} (V : ValidDecIn e a) (B : Limits.byWords.Dec e a)
    (h16 : a.clen = 16) {S : State} {T T' : List Byte}
    (hS : S = macSt p isapA128a (bytesAt s a.npub 16) (bytesAt s a.ad a.adlen) [])
    (hT : T = isapA128a.mac (bytesAt s a.k 16) (bytesAt s a.npub 16) (bytesAt s a.ad a.adlen) [])
    (hT' : T' = bytesAt s a.c 16) :
    ∃ s1 : St, s1.mem = (putBytes s a.mlen (toLe64 0)).mem ∧ s1.s0 = φ S.x0 ∧ s1.s1 = φ S.x1 ∧
      Reach e ((aead D).decrypt a) s (pvp D T T' >>= fun eqCnt => do
        let ok ← branch (eqCnt = 16)
        if ok then
          let l ← loadLen a.mlen
          ifThen (l > 0) do
            let l ← loadLen a.mlen
            isapEnc D.toPrims a.k a.npub a.c l a.m
          pure 0
        else
          pure (-1)) s1 := by
  have hlcell : BitVec.ofNat 64 (a.clen + (2 ^ 64 - 16)) = 0 := by rw [h16]; rfl
  generalize hs1 : putBytes s a.mlen (toLe64 0) = s1
  have hcell : bytesAt s1 a.mlen 8 = toLe64 0 := by
    rw [← hs1, bytesAt_putBytes_same' _ _ _ (by simp)]
  have b1 : ∀ p n, Disjoint a.mlen 8 p n → bytesAt s1 p n = bytesAt s p n := by
    intro p n h
    rw [← hs1, bytesAt_putBytes_disjoint _ _ _ _ _ (by simpa using h.symm)]
  have hloadLen : Runs (loadLen a.mlen) e s1 0 s1 := runs_loadLen V.mlen (by omega) hcell rfl
  have hm := runs_isapMacA O s1 B.k B.npub B.ad (aligned_zero ..) V.k V.npub V.ad (c := a.c) (clen := 0) (fun i hi => absurd hi (Nat.not_lt_zero i))
  rw [b1 _ _ V.mlen_k, b1 _ _ V.mlen_npub, b1 _ _ V.mlen_ad, show bytesAt s1 a.c 0 = [] from rfl, ← hT, ← hS] at hm
  have hloadLen2 : Runs (loadLen a.mlen) e (upd φ S s1) 0 (upd φ S s1) :=
    runs_loadLen V.mlen (by omega) ((bytesAt_mem_congr (s := upd φ S s1) (t := s1) rfl _ _).trans hcell) rfl
  have hread := runs_readTag (c := a.c) (n := 16) hloadLen2 (show Readable e (a.c + 0) 16 from V.c.mono (by omega))
  have hTT : bytesAt (upd φ S s1) (a.c + 0) 16 = T' := by
    rw [hT']
    have := b1 a.c 16 (by have := V.mlen_c; rwa [h16] at this)
    exact this
  rw [hTT] at hread
  refine ⟨upd φ S s1, rfl, rfl, rfl, ?_⟩
  have hst : Runs (storeLen a.mlen (a.clen + (2 ^ 64 - 16))) e s () s1 := by
    have := runs_storeLen (s := s) V.mlen (n := a.clen + (2 ^ 64 - 16))
    rwa [hlcell, hs1] at this
  refine (Reach.of_runs hst _).trans ((Reach.of_runs hloadLen _).trans ((Reach.of_runs hm _).trans ?_))
  exact Reach.of_runs hread _

/-- The comparison when the globals change between its halves. -/
theorem reach_race (O : StpOK D φ Spec.Ascon.p) {e : Env} {T : List Byte} (hT : T.length = 16) {S S' : State} {s : St}
    (h0 : s.s0 = φ S.x0) (h1 : s.s1 = φ S.x1) (hne : (img p S T).x0 ≠ (img p S' T).x0) (fin : CM Int) :
    ∃ mid, Reach e (pvp D T T >>= fun eqCnt => do
        let ok ← branch (eqCnt = 16)
        if ok then fin else pure (-1)) s mid s ∧
      ∀ s' : St, s'.s0 = φ S'.x0 → s'.s1 = φ S'.x1 → Reach e mid s' (pure (-1)) s' := by
  refine ⟨(do
      let v ← pvpHalf D T
      let cnt ← forN 8 0 (fun i (cnt : Nat) => pure (cnt + if byteOf v.x0 i = byteOf (rep φ (img p S T)).x0 i then 1 else 0)) 0
      forN 8 0 (fun i (cnt : Nat) => pure (cnt + if byteOf v.x1 i = byteOf (rep φ (img p S T)).x1 i then 1 else 0)) cnt) >>=
      fun eqCnt => do
        let ok ← branch (eqCnt = 16)
        if ok then fin else pure (-1), ?_, ?_⟩
  · unfold pvp
    rw [CM.bind_assoc]
    exact Reach.of_runs (runs_pvpHalf O e s hT h0 h1) _
  · intro s' h0' h1'
    rw [CM.bind_assoc]
    refine (Reach.of_runs (runs_pvpHalf O e s' hT h0' h1') _).trans ?_
    obtain ⟨n, hn, hc⟩ := runs_pvpCount O e s' (img p S T) (img p S' T)
    refine (Reach.of_runs hn _).trans ?_
    have hn16 : ¬ n = 16 := fun h => hne (hc.1 h).1
    rw [show decide (n = 16) = false from decide_eq_false hn16]
    exact Reach.of_runs (runs_branch false e s') (fun ok => if ok then fin else pure (-1))

/-- A concrete pair of calls. -/
def onesN : List Byte := List.replicate 16 0x01

set_option maxRecDepth 100000 in
theorem race_word :
    (pF 7 ⟨(macW pF (PQ p) (zeros 16) (zeros 16) [] []).x0, (macW pF (PQ p) (zeros 16) (zeros 16) [] []).x1,
      (macSt pF (PQ p) (zeros 16) [] []).x0, (macSt pF (PQ p) (zeros 16) [] []).x1, 0⟩).x0 ≠
    (pF 7 ⟨(macW pF (PQ p) (zeros 16) (zeros 16) [] []).x0, (macW pF (PQ p) (zeros 16) (zeros 16) [] []).x1,
      (macSt pF (PQ p) onesN [] []).x0, (macSt pF (PQ p) onesN [] []).x1, 0⟩).x0 := by
  decide +kernel

theorem race_ne : (img p (macSt p (PQ p) (zeros 16) [] []) ((PQ p).mac (zeros 16) (zeros 16) [] [])).x0 ≠
    (img p (macSt p (PQ p) onesN [] []) ((PQ p).mac (zeros 16) (zeros 16) [] [])).x0 := by
  have h := race_word
  rw [pF_eq] at h
  rw [(isAscon (q := p)).mac_words _ _ rfl rfl]
  have key : ∀ (A B C : State), (p 7 ⟨A.x0, A.x1, B.x0, B.x1, 0⟩).x0 ≠ (p 7 ⟨A.x0, A.x1, C.x0, C.x1, 0⟩).x0 →
      (img p B (be64 A.x0 ++ be64 A.x1)).x0 ≠ (img p C (be64 A.x0 ++ be64 A.x1)).x0 := by
    intro A B C h
    simp only [img]
    have e1 : ofBe64 (be64 A.x0 ++ be64 A.x1) = A.x0 := ofBe64_be64_append _ _
    have e2 : ofBe64 ((be64 A.x0 ++ be64 A.x1).drop 8) = A.x1 := by
      rw [List.drop_left' (by simp), ofBe64_be64]
    rw [e1, e2]
    exact h
  exact key _ _ _ h

end Model.Opt.Stp
