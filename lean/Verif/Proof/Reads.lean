import Verif.Proof.Shape
import Verif.Proof.Words
/-!
# Authentication reads the whole ciphertext

A run of `isap_mac` that ends normally has read every byte of `c`.  So if not all of them may be read, the call is undefined.
-/

namespace C

theorem runs_or_ub (f : CM α) (e : Env) (s : St) : (∃ a s', Runs f e s a s') ∨ IsUB f e s := by
  cases h : run f e s with
  | ok a s' tr => exact .inl ⟨a, s', tr, h⟩
  | ub u => exact .inr ⟨u, h⟩

theorem runs_load_inv {al w : Nat} {p : Ptr} {e : Env} {s s' : St} {a : List Byte} (h : Runs (load al w p) e s a s') :
    Readable e p w ∧ a = bytesAt s p w ∧ s' = s := by
  obtain ⟨tr, h⟩ := h
  simp only [load, run] at h
  split at h
  · rename_i hc
    split at h
    · injection h with h1 h2 h3
      refine ⟨?_, h1.symm, h2.symm⟩
      intro i hi
      rw [canRead, List.all_eq_true] at hc
      exact hc i (List.mem_range.2 hi)
    · exact nomatch h
  · exact nomatch h

theorem runs_load8_inv {p : Ptr} {e : Env} {s s' : St} {a : Byte} (h : Runs (load8 p) e s a s') :
    e.rd p.blk p.off = true ∧ s' = s := by
  obtain ⟨x, s1, h1, h2⟩ := runs_bind_inv h
  obtain ⟨hr, _, rfl⟩ := runs_load_inv h1
  exact ⟨hr 0 (by decide), (Runs.det h2 (runs_pure _ _ _)).2⟩

theorem runs_load64_inv {p : Ptr} {e : Env} {s s' : St} {a : BitVec 64} (h : Runs (load64 p) e s a s') :
    Readable e p 8 ∧ s' = s := by
  obtain ⟨x, s1, h1, h2⟩ := runs_bind_inv h
  obtain ⟨hr, _, rfl⟩ := runs_load_inv h1
  exact ⟨hr, (Runs.det h2 (runs_pure _ _ _)).2⟩

theorem runs_loadLen_inv {p : Ptr} {e : Env} {s s' : St} {a : Nat} (h : Runs (loadLen p) e s a s') :
    a = (le64 (bytesAt s p 8)).toNat ∧ s' = s := by
  obtain ⟨x, s1, h1, h2⟩ := runs_bind_inv h
  obtain ⟨_, rfl, rfl⟩ := runs_load_inv h1
  exact Runs.det h2 (runs_pure _ _ _)

theorem runs_storeLen_inv {p : Ptr} {n : Nat} {e : Env} {s s' : St} {a : Unit} (h : Runs (storeLen p n) e s a s') :
    s' = putBytes s p (toLe64 (BitVec.ofNat 64 n)) := by
  obtain ⟨tr, h⟩ := h
  simp only [storeLen, store, run] at h
  split at h
  · split at h
    · split at h
      · injection h with h1 h2 h3; exact h2.symm
      · exact nomatch h
    · exact nomatch h
  · exact nomatch h

/-- Each iteration of a loop that ends normally ends normally. -/
theorem runs_forN_each {σ : Type} {f : Nat → σ → CM σ} {e : Env} {P : Nat → Prop}
    (h : ∀ i x s a s', Runs (f i x) e s a s' → P i) (n i : Nat) (x : σ) {s s' : St} {a : σ} (hr : Runs (forN n i f x) e s a s')
    (j : Nat) (hj : j < n) : P (i + j) := by
  induction n generalizing i x s j with
  | zero => omega
  | succ n ih =>
    obtain ⟨_, _, _, hr⟩ := runs_bind_inv hr
    obtain ⟨_, _, h1, hr⟩ := runs_bind_inv hr
    cases j with
    | zero => exact h _ _ _ _ _ h1
    | succ j =>
      have := ih (i + 1) _ hr j (by omega)
      rwa [show i + (j + 1) = i + 1 + j by omega]

theorem runs_whileGe_each {σ : Type} {r : Nat} {hr : 0 < r} {f : Nat → σ → CM σ} {e : Env} {P : Nat → Prop}
    (h : ∀ i x s a s', Runs (f i x) e s a s' → P i) (len i : Nat) (x : σ) {s s' : St} {a : σ}
    (hw : Runs (whileGe r hr len i f x) e s a s') (j : Nat) (hj : j < len / r) : P (i + j) := by
  rw [whileGe_eq] at hw
  exact runs_forN_each h _ _ _ hw j hj

theorem runs_if_inv {b : Bool} {f g : CM α} {e : Env} {s s' : St} {a : α}
    (h : Runs (branch b >>= fun b => if b then f else g) e s a s') :
    (b = true ∧ Runs f e s a s') ∨ (b = false ∧ Runs g e s a s') := by
  obtain ⟨b', s1, h1, h2⟩ := runs_bind_inv h
  obtain ⟨rfl, rfl⟩ := Runs.det h1 (runs_branch _ _ _)
  cases b'
  · exact .inr ⟨rfl, h2⟩
  · exact .inl ⟨rfl, h2⟩

/-- Full blocks and a rest of single bytes cover a buffer. -/
theorem readable_blocks {e : Env} {p : Ptr} {r n : Nat} (h1 : ∀ j, j < n / r → Readable e (p + r * j) r)
    (h2 : Readable e (p + r * (n / r)) (n % r)) : Readable e p n := by
  intro i hi
  have hi' := Nat.div_add_mod i r
  have hn' := Nat.div_add_mod n r
  by_cases h : i / r < n / r
  · have hr : 0 < r := by
      rcases Nat.eq_zero_or_pos r with rfl | h0
      · simp at h
      · exact h0
    have := h1 _ h (i % r) (Nat.mod_lt _ hr)
    have e1 : (p + r * (i / r)).off + i % r = p.off + i := by
      show p.off + r * (i / r) + i % r = _
      omega
    rwa [e1] at this
  · have hle : r * (n / r) ≤ i := Nat.le_trans (Nat.mul_le_mul_left r (Nat.not_lt.1 h)) (by omega)
    have := h2 (i - r * (n / r)) (by omega)
    have e1 : (p + r * (n / r)).off + (i - r * (n / r)) = p.off + i := by
      show p.off + r * (n / r) + (i - r * (n / r)) = _
      omega
    rwa [e1] at this

/-- Full 8-byte words and a rest of single bytes cover a buffer. -/
theorem readable_words {e : Env} {p : Ptr} {n : Nat} (h1 : ∀ j, j < n / 8 → Readable e (p + 8 * j) 8)
    (h2 : Readable e (p + 8 * (n / 8)) (n % 8)) : Readable e p n := readable_blocks h1 h2

end C

namespace Model
open C

/-- `isap_mac` reads `c` and `ad`, whose lengths it takes modulo `L`. -/
def MacReads (L : Nat) (I : Impl) : Prop :=
  ∀ k npub ad adlen c clen e s a s', Runs (I.mac k npub ad adlen c clen) e s a s' →
    Readable e c (clen % L) ∧ Readable e ad (adlen % L)

theorem Ref.macReads (G : Ref.Cfg) (L : Nat) : MacReads L (Ref.impl G) := by
  intro k npub ad adlen c clen e s a s' h
  have h : Runs (Ref.isapMac G k npub ad adlen c clen) e s a s' := h
  unfold Ref.isapMac at h
  iterate 3 obtain ⟨_, _, _, h⟩ := runs_bind_inv h
  obtain ⟨_, _, h2, h⟩ := runs_bind_inv h
  iterate 4 obtain ⟨_, _, _, h⟩ := runs_bind_inv h
  obtain ⟨_, _, h1, h⟩ := runs_bind_inv h
  constructor
  · have key := runs_forN_each (P := fun i => e.rd c.blk (c.off + i) = true) ?_ _ _ _ h1
    · intro i hi
      have := key i (Nat.lt_of_lt_of_le hi (Nat.mod_le _ _))
      rwa [Nat.zero_add] at this
    · intro i x s a s' h
      obtain ⟨_, _, h, _⟩ := runs_bind_inv h
      exact (runs_load8_inv h).1
  · have key := runs_forN_each (P := fun i => e.rd ad.blk (ad.off + i) = true) ?_ _ _ _ h2
    · intro i hi
      have := key i (Nat.lt_of_lt_of_le hi (Nat.mod_le _ _))
      rwa [Nat.zero_add] at this
    · intro i x s a s' h
      obtain ⟨_, _, _, h⟩ := runs_bind_inv h
      obtain ⟨_, _, h, _⟩ := runs_bind_inv h
      exact (runs_load8_inv h).1

namespace Opt

theorem absorbTail_reads {D : Prims} {x : State} {src : Ptr} {len : Nat} {e : Env} {s s' : St} {a : State}
    (h : Runs (absorbTail D x src len) e s a s') : Readable e src len := by
  unfold absorbTail at h
  rcases runs_if_inv h with ⟨_, h⟩ | ⟨h0, _⟩
  · obtain ⟨_, _, h, _⟩ := runs_bind_inv h
    have key := runs_forN_each (P := fun i => e.rd src.blk (src.off + i) = true) ?_ _ _ _ h
    · intro i hi
      have := key i hi
      rwa [Nat.zero_add] at this
    · intro i x s a s' h
      obtain ⟨_, _, h, _⟩ := runs_bind_inv h
      exact (runs_load8_inv h).1
  · intro i hi
    simp at h0
    omega

theorem absorbLanes_reads {D : Prims} {x : State} {src : Ptr} {len : Nat} {e : Env} {s s' : St} {a : State}
    (h : Runs (absorbLanes D x src len) e s a s') : Readable e src len := by
  unfold absorbLanes at h
  obtain ⟨_, _, h1, h2⟩ := runs_bind_inv h
  refine readable_words (fun j hj => ?_) (absorbTail_reads h2)
  have := runs_whileGe_each (P := fun i => Readable e (src + 8 * i) 8) ?_ _ _ _ h1 j hj
  · rwa [Nat.zero_add] at this
  · intro i x s a s' h
    obtain ⟨_, _, h, _⟩ := runs_bind_inv h
    exact (runs_load64_inv h).1

theorem macAbsorb_reads {D : Prims} {npub ad : Ptr} {adlen : Nat} {c : Ptr} {clen : Nat} {e : Env} {s s' : St} {a : State}
    (h : Runs (macAbsorb D npub ad adlen c clen) e s a s') : Readable e c clen ∧ Readable e ad adlen := by
  unfold macAbsorb at h
  iterate 3 obtain ⟨_, _, _, h⟩ := runs_bind_inv h
  obtain ⟨_, _, h1, h⟩ := runs_bind_inv h
  exact ⟨absorbLanes_reads h, absorbLanes_reads h1⟩

theorem macReads (D : Prims) (L : Nat) : MacReads L (impl D) := by
  intro k npub ad adlen c clen e s a s' h
  have h : Runs (isapMac D k npub ad adlen c clen) e s a s' := h
  unfold isapMac at h
  obtain ⟨_, _, h, _⟩ := runs_bind_inv h
  exact ⟨(macAbsorb_reads h).1.mono (Nat.mod_le _ _), (macAbsorb_reads h).2.mono (Nat.mod_le _ _)⟩

theorem Stp.macReads (D : StpPrims) (L : Nat) : MacReads L (Stp.impl D) := by
  intro k npub ad adlen c clen e s a s' h
  have h : Runs (Stp.isapMac D k npub ad adlen c clen) e s a s' := h
  unfold Stp.isapMac at h
  obtain ⟨_, _, h, _⟩ := runs_bind_inv h
  exact ⟨(macAbsorb_reads h).1.mono (Nat.mod_le _ _), (macAbsorb_reads h).2.mono (Nat.mod_le _ _)⟩

end Opt

namespace A128

theorem Opt64.absorbLanes_reads {pH : Opt.State → Opt.State} {d : DataModel} {x : Opt.State} {src : Ptr} {len : Nat} {e : Env}
    {s s' : St} {a : Opt.State} (h : Runs (absorbLanes pH d x src len) e s a s') : Readable e src (len % d.ulong) := by
  unfold absorbLanes at h
  generalize len % d.ulong = len at *
  rw [whileRem_eq] at h
  obtain ⟨hb1, hb2⟩ := remBlocks_le (r := 8) (by decide) len
  generalize remBlocks 8 len = n at *
  obtain ⟨_, _, h1, h2⟩ := runs_bind_inv h
  have k1 : ∀ j, j < n → Readable e (src + 8 * j) 8 := by
    intro j hj
    have := runs_forN_each (P := fun i => Readable e (src + 8 * i) 8) ?_ _ _ _ h1 j hj
    · rwa [Nat.zero_add] at this
    · intro i x s a s' h
      obtain ⟨_, _, h, _⟩ := runs_bind_inv h
      exact (runs_load64_inv h).1
  rw [Nat.zero_add] at h2
  rcases runs_if_inv h2 with ⟨h0, h⟩ | ⟨h0, h⟩
  · obtain ⟨_, _, h, _⟩ := runs_bind_inv h
    have k2 := (runs_load64_inv h).1
    rw [decide_eq_true_iff] at h0
    refine readable_words (fun j hj => ?_) (fun i hi => absurd hi (by omega))
    by_cases hjn : j < n
    · exact k1 j hjn
    · rwa [show j = n by omega]
  · rw [decide_eq_false_iff_not] at h0
    have hn : len / 8 = n := by omega
    refine readable_words (fun j hj => k1 j (by omega)) ?_
    rw [hn]
    obtain ⟨_, _, h, _⟩ := runs_bind_inv h
    have key := runs_forN_each (P := fun i => i < len - 8 * n → e.rd (src + 8 * n).blk ((src + 8 * n).off + i) = true) ?_ _ _ _ h
    · intro i hi
      have := key i (by omega)
      rw [Nat.zero_add] at this
      exact this (by omega)
    · intro i x s a s' h hi
      unfold padByte at h
      rcases runs_if_inv h with ⟨_, h⟩ | ⟨h0, _⟩
      · obtain ⟨_, _, h, _⟩ := runs_bind_inv h
        exact (runs_load8_inv h).1
      · rw [decide_eq_false_iff_not] at h0
        exact absurd hi h0

theorem Opt64.absorbMac_reads {pH : Opt.State → Opt.State} {d : DataModel} {x : Opt.State} {src : Ptr} {len : Nat} {e : Env}
    {s s' : St} {a : Opt.State} (h : Runs (absorbMac pH d x src len) e s a s') : Readable e src (len % d.ulong) := by
  obtain ⟨_, _, h, _⟩ := runs_bind_inv h
  exact absorbLanes_reads h

theorem Opt64.macReads (D : Cfg) {L : Nat} (hL : L ∣ D.dm.ulong) : MacReads L (impl D) := by
  intro k npub ad adlen c clen e s a s' h
  have h : Runs (isapMac D k npub ad adlen c clen) e s a s' := h
  unfold isapMac at h
  obtain ⟨_, _, h, _⟩ := runs_bind_inv h
  unfold macAbsorb at h
  iterate 2 obtain ⟨_, _, _, h⟩ := runs_bind_inv h
  obtain ⟨_, _, h1, h⟩ := runs_bind_inv h
  have key : ∀ n, n % L ≤ n % D.dm.ulong := fun n => by
    rw [← Nat.mod_mod_of_dvd n hL]
    exact Nat.mod_le _ _
  exact ⟨(absorbMac_reads h).mono (key _), (absorbMac_reads h1).mono (key _)⟩

theorem Opt32.absorb_reads {D : Prims} {x : Opt.State} {src : Ptr} {len : Nat} {e : Env} {s s' : St} {a : Opt.State}
    (h : Runs (absorb D x src len) e s a s') : Readable e src len := by
  unfold absorb at h
  obtain ⟨_, _, h1, h2⟩ := runs_bind_inv h
  obtain ⟨_, _, h2, _⟩ := runs_bind_inv h2
  refine readable_words (fun j hj => ?_) ?_
  · have := runs_whileGe_each (P := fun i => Readable e (src + 8 * i) 8) ?_ _ _ _ h1 j hj
    · rwa [Nat.zero_add] at this
    · intro i x s a s' h
      obtain ⟨_, _, h, _⟩ := runs_bind_inv h
      exact (runs_load64_inv h).1
  · unfold absorbPart at h2
    rcases runs_if_inv h2 with ⟨_, h⟩ | ⟨h0, _⟩
    · obtain ⟨_, _, h, _⟩ := runs_bind_inv h
      have key := runs_forN_each (P := fun i => e.rd (src + 8 * (len / 8)).blk ((src + 8 * (len / 8)).off + i) = true) ?_ _ _ _ h
      · intro i hi
        have := key i hi
        rwa [Nat.zero_add] at this
      · intro i x s a s' h
        obtain ⟨_, _, h, _⟩ := runs_bind_inv h
        exact (runs_load8_inv h).1
    · intro i hi
      rw [decide_eq_false_iff_not] at h0
      omega

theorem Opt32.macReads (D : Prims) (L : Nat) : MacReads L (impl D) := by
  intro k npub ad adlen c clen e s a s' h
  have h : Runs (isapMac D k npub ad adlen c clen) e s a s' := h
  unfold isapMac at h
  obtain ⟨_, _, h, _⟩ := runs_bind_inv h
  unfold macAbsorb at h
  iterate 3 obtain ⟨_, _, _, h⟩ := runs_bind_inv h
  obtain ⟨_, _, h1, h⟩ := runs_bind_inv h
  exact ⟨(absorb_reads h).mono (Nat.mod_le _ _), (absorb_reads h1).mono (Nat.mod_le _ _)⟩

end A128

namespace K128

/-- Reading a block reads 18 bytes. -/
structure PrimsReads (D : Prims) : Prop where
  ldBlk : ∀ p e s a s', Runs (D.ldBlk p) e s a s' → Readable e p 18

theorem absorbMac_reads {D : Prims} (P : PrimsReads D) {x : List Byte} {src : Ptr} {len : Nat} {e : Env} {s s' : St}
    {a : List Byte} (h : Runs (absorbMac D x src len) e s a s') : Readable e src len := by
  unfold absorbMac at h
  rw [whileRem_eq] at h
  obtain ⟨hb1, hb2⟩ := remBlocks_le (r := 18) (by decide) len
  generalize remBlocks 18 len = n at *
  obtain ⟨_, _, h1, h2⟩ := runs_bind_inv h
  have k1 : ∀ j, j < n → Readable e (src + 18 * j) 18 := by
    intro j hj
    have := runs_forN_each (P := fun i => Readable e (src + 18 * i) 18) ?_ _ _ _ h1 j hj
    · rwa [Nat.zero_add] at this
    · intro i x s a s' h
      obtain ⟨_, _, h, _⟩ := runs_bind_inv h
      exact P.ldBlk _ _ _ _ _ h
  rw [Nat.zero_add] at h2
  rcases runs_if_inv h2 with ⟨h0, h⟩ | ⟨h0, h⟩
  · obtain ⟨_, _, h, _⟩ := runs_bind_inv h
    have k2 := P.ldBlk _ _ _ _ _ h
    rw [decide_eq_true_iff] at h0
    refine readable_blocks (r := 18) (fun j hj => ?_) (fun i hi => absurd hi (by omega))
    by_cases hjn : j < n
    · exact k1 j hjn
    · rwa [show j = n by omega]
  · rw [decide_eq_false_iff_not] at h0
    have hn : len / 18 = n := by omega
    refine readable_blocks (r := 18) (fun j hj => k1 j (by omega)) ?_
    rw [hn]
    obtain ⟨_, _, h, _⟩ := runs_bind_inv h
    have key := runs_forN_each
      (P := fun i => i < len - 18 * n → e.rd (src + 18 * n).blk ((src + 18 * n).off + i) = true) ?_ _ _ _ h
    · intro i hi
      have := key i (by omega)
      rw [Nat.zero_add] at this
      exact this (by omega)
    · intro i x s a s' h hi
      unfold padByte at h
      rcases runs_if_inv h with ⟨_, h⟩ | ⟨h0, _⟩
      · obtain ⟨_, _, h, _⟩ := runs_bind_inv h
        exact (runs_load8_inv h).1
      · rw [decide_eq_false_iff_not] at h0
        exact absurd hi h0

theorem macReads {D : Prims} (P : PrimsReads D) (L : Nat) : MacReads L (impl D) := by
  intro k npub ad adlen c clen e s a s' h
  have h : Runs (isapMac D k npub ad adlen c clen) e s a s' := h
  unfold isapMac at h
  obtain ⟨_, _, _, h⟩ := runs_bind_inv h
  obtain ⟨_, _, h1, h⟩ := runs_bind_inv h
  obtain ⟨_, _, h, _⟩ := runs_bind_inv h
  exact ⟨(absorbMac_reads P h).mono (Nat.mod_le _ _), (absorbMac_reads P h1).mono (Nat.mod_le _ _)⟩

theorem Opt64.ldBlk_reads (p : Ptr) (e : Env) (s : St) (a : List Byte) (s' : St) (h : Runs (ldBlk p) e s a s') :
    Readable e p 18 := by
  unfold ldBlk at h
  obtain ⟨_, _, h1, h⟩ := runs_bind_inv h
  obtain ⟨_, _, h2, h⟩ := runs_bind_inv h
  obtain ⟨_, _, h3, _⟩ := runs_bind_inv h
  refine readable_blocks (r := 8) (fun j hj => ?_) ?_
  · match j, hj with
    | 0, _ => exact (runs_load_inv h1).1
    | 1, _ => exact (runs_load_inv h2).1
  · exact fun i hi => (runs_load_inv h3).1 i (by omega)

theorem Opt64.primsK128aReads : PrimsReads primsK128a := ⟨ldBlk_reads⟩
theorem Opt64.primsK128Reads : PrimsReads primsK128 := ⟨ldBlk_reads⟩
theorem Avx.primsReads (j : Junk) : PrimsReads (prims j) := ⟨fun _ _ _ _ _ h => (runs_load_inv h).1⟩

namespace Arm

theorem loads_reads {al w n : Nat} {p : Ptr} {e : Env} {s s' : St} {a : List Byte} (h : Runs (loads al w n p) e s a s') :
    Readable e p (w * n) := by
  induction n generalizing p s s' a with
  | zero => exact fun i hi => absurd hi (by omega)
  | succ n ih =>
    obtain ⟨_, _, h1, h⟩ := runs_bind_inv h
    obtain ⟨_, _, h2, _⟩ := runs_bind_inv h
    have h1 := (runs_load_inv h1).1
    have h2 := ih h2
    intro i hi
    by_cases hw : i < w
    · exact h1 i hw
    · have := h2 (i - w) (by rw [Nat.mul_succ] at hi; omega)
      have e1 : (p + w).off + (i - w) = p.off + i := by
        show p.off + w + (i - w) = _
        omega
      rw [e1] at this
      exact this

theorem absorb_reads {D : Arm.Prims} {x : List Byte} {src : Ptr} {len : Nat} {e : Env} {s s' : St}
    {a : List Byte} (h : Runs (absorb D x src len) e s a s') : Readable e src len := by
  unfold absorb at h
  obtain ⟨_, _, h1, h⟩ := runs_bind_inv h
  obtain ⟨_, _, h2, _⟩ := runs_bind_inv h
  refine readable_blocks (r := 18) (fun j hj => ?_) (fun j hj => ?_)
  · have := runs_whileGe_each (P := fun i => Readable e (src + 18 * i) 18) ?_ _ _ _ h1 j hj
    · rwa [Nat.zero_add] at this
    · intro i x s a s' h
      obtain ⟨_, _, h, _⟩ := runs_bind_inv h
      exact loads_reads h
  · have := runs_forN_each
      (P := fun i => e.rd (src + 18 * (len / 18)).blk ((src + 18 * (len / 18)).off + i) = true) ?_ _ _ _ h2 j hj
    · rwa [Nat.zero_add] at this
    · intro i x s a s' h
      obtain ⟨_, _, h, _⟩ := runs_bind_inv h
      exact (runs_load8_inv h).1

theorem macReads (D : Arm.Prims) : MacReads (2 ^ 32) (impl D) := by
  intro k npub ad adlen c clen e s a s' h
  have h : Runs (isapMac D k npub ad adlen c clen) e s a s' := h
  unfold isapMac at h
  iterate 2 obtain ⟨_, _, _, h⟩ := runs_bind_inv h
  obtain ⟨_, _, h1, h⟩ := runs_bind_inv h
  obtain ⟨_, _, h, _⟩ := runs_bind_inv h
  exact ⟨absorb_reads h, absorb_reads h1⟩

end Arm

end K128

/-- Decryption that ends normally has read `(clen - 16) mod 2^64` bytes (modulo `L`) of `c` and `adlen` bytes (modulo `L`) of `ad`. -/
def DecReads (L : Nat) (A : Aead) : Prop :=
  ∀ (a : DecArgs) e s r s', Runs (A.decrypt a) e s r s' →
    Readable e a.c ((a.clen + (2 ^ 64 - 16)) % 2 ^ 64 % L) ∧ Readable e a.ad (a.adlen % L)

theorem loadLen_storeLen {p : Ptr} {n : Nat} {s : St} :
    (le64 (bytesAt (putBytes s p (toLe64 (BitVec.ofNat 64 n))) p 8)).toNat = n % 2 ^ 64 := by
  have hl : (toLe64 (BitVec.ofNat 64 n)).length = 8 := by simp [toLe64]
  have := bytesAt_putBytes_same s p (toLe64 (BitVec.ofNat 64 n))
  rw [hl] at this
  rw [this, le64_toLe64, BitVec.toNat_ofNat]

theorem decReads_common {L : Nat} {I : Impl} (h : MacReads L I) : DecReads L I.aead := by
  intro a e s r s' hr
  have hr : Runs (decrypt I a.m a.mlen a.nsec a.c a.clen a.ad a.adlen a.npub a.k) e s r s' := hr
  unfold decrypt at hr
  obtain ⟨_, s1, h1, hr⟩ := runs_bind_inv hr
  obtain ⟨l, s2, h2, hr⟩ := runs_bind_inv hr
  obtain ⟨_, _, h3, hr⟩ := runs_bind_inv hr
  rw [runs_storeLen_inv h1] at h2
  have := (runs_loadLen_inv h2).1
  rw [loadLen_storeLen] at this
  rw [← this]
  exact h _ _ _ _ _ _ _ _ _ _ h3

theorem decReads_stp {L : Nat} {D : Opt.StpPrims} (h : MacReads L (Opt.Stp.impl D)) : DecReads L (Opt.Stp.aead D) := by
  intro a e s r s' hr
  have hr : Runs (Opt.Stp.decrypt D a.m a.mlen a.nsec a.c a.clen a.ad a.adlen a.npub a.k) e s r s' := hr
  unfold Opt.Stp.decrypt at hr
  obtain ⟨_, s1, h1, hr⟩ := runs_bind_inv hr
  obtain ⟨l, s2, h2, hr⟩ := runs_bind_inv hr
  obtain ⟨_, _, h3, hr⟩ := runs_bind_inv hr
  rw [runs_storeLen_inv h1] at h2
  have := (runs_loadLen_inv h2).1
  rw [loadLen_storeLen] at this
  rw [← this]
  exact h _ _ _ _ _ _ _ _ _ _ h3

theorem Target.decReads (t : Target) : DecReads t.limits.maxLen t.aead := by
  cases t
  case ref p => exact decReads_common (Ref.macReads _ _)
  case x p => exact decReads_common (Ref.macReads _ _)
  case a128aOpt32Stp => exact decReads_stp (Opt.Stp.macReads _ _)
  case a128aBi32Stp => exact decReads_stp (Opt.Stp.macReads _ _)
  case a128aBi32Armv6mStp => exact decReads_stp (Opt.Stp.macReads _ _)
  case a128aAvx512 d => exact decReads_common (I := A128.Avx.impl d) (A128.Opt64.macReads _ (by cases d <;> decide))
  case a128Opt64 d => exact decReads_common (A128.Opt64.macReads _ (Nat.dvd_refl _))
  case a128Opt32 => exact decReads_common (A128.Opt32.macReads _ _)
  case a128Opt32Armv67m => exact decReads_common (A128.Opt32.macReads _ _)
  case k128aOpt64 => exact decReads_common (K128.macReads K128.Opt64.primsK128aReads _)
  case k128Opt64 => exact decReads_common (K128.macReads K128.Opt64.primsK128Reads _)
  case k128aAvx512 j => exact decReads_common (K128.macReads (K128.Avx.primsReads j) _)
  case k128aOpt32Armv6m => exact decReads_common (K128.Arm.macReads _)
  case k128aOpt32Armv7m => exact decReads_common (K128.Arm.macReads _)
  case k128Opt32Armv6m => exact decReads_common (K128.Arm.macReads _)
  case k128Opt32Armv7m => exact decReads_common (K128.Arm.macReads _)
  all_goals exact decReads_common (Opt.macReads _ _)

end Model
