import Verif.Model.BoundsRef
import Verif.Proof.Checked
/-!
# The reference implementation never leaves its arrays
-/

namespace Model.Ref.Chk
open C

/-- What the proof needs of a configuration. -/
structure Ok (G : Cfg) : Prop where
  lib : G.libSz = G.stateSz
  big : 24 ≤ G.stateSz
  rate : 0 < G.rHsz ∧ G.rHsz ≤ G.stateSz
  perm : ∀ (S : List Byte) (n : Nat), S.length = G.stateSz →
    Chk (fun a b => a = Arr.of b ∧ b.length = G.stateSz) (G.permuteChk (Arr.of S) n) (G.permute S n)

variable {G : Cfg}

/-- Related states. -/
abbrev RS (G : Cfg) : Arr Byte → List Byte → Prop := fun a b => a = Arr.of b ∧ b.length = G.stateSz

/-- Related states with the number of available bytes. -/
abbrev RN (G : Cfg) : Arr Byte × Nat → List Byte × Nat → Prop := fun x y => RS G x.1 y.1 ∧ x.2 = y.2 ∧ y.2 ≤ G.rHsz

theorem initState_eq (H : Ok G) : initState G (Arr.new G.stateSz) = .ret (Arr.of (List.replicate G.stateSz (0 : Byte))) := by
  rw [initState, H.lib, awrites_all (by simp [Arr.new])]

theorem addBytes_chk (H : Ok G) {s : Arr Byte} {t : List Byte} (hs : RS G s t) {x : CSrc} {y : Src} {offset length : Nat}
    (hx : SrcChk length x y) :
    Chk (RS G) (addBytes G s x offset length) (Ref.addBytes G.toCfg t y offset length) := by
  unfold addBytes Ref.addBytes
  refine (chk_assert' (by rw [H.lib])).bind fun _ _ h1 => (chk_assert' (by rw [H.lib])).bind fun _ _ h2 => ?_
  have h2 : offset + length ≤ G.stateSz := by simpa using h2
  refine chk_forN' (R := RS G) ?_ hs
  rintro j a b _ hj ⟨rfl, hb⟩
  refine (chk_get hx (by omega)).bind ?_
  rintro d _ rfl
  have hl : offset + j < b.length := by omega
  rw [aget_of hl]
  show Chk _ (aset _ _ _) _
  rw [aset_of hl]
  refine .ret ⟨?_, by simpa using hb⟩
  congr 1
  apply List.ext_getElem?
  intro i
  by_cases e : offset + j = i
  · subst e; simp [hl]
  · simp [List.getElem?_set_ne e, e]

theorem refill_chk (H : Ok G) {s : Arr Byte} {t : List Byte} (hs : RS G s t) (n avail : Nat) (ha : avail ≤ G.rHsz) :
    Chk (fun x y => RS G x.1 y.1 ∧ x.2 = y.2 ∧ 0 < y.2 ∧ y.2 ≤ G.rHsz) (refill G n s avail) (Ref.refill G.toCfg n t avail) := by
  unfold refill Ref.refill
  obtain ⟨rfl, ht⟩ := hs
  refine chk_if (fun _ => ?_) fun h => ?_
  · exact (H.perm _ _ ht).bind fun a b hab => .ret ⟨hab, rfl, H.rate.1, Nat.le_refl _⟩
  · have : ¬ avail = 0 := of_decide_eq_false h
    exact .ret ⟨⟨rfl, ht⟩, rfl, by show 0 < avail; omega, ha⟩

theorem extractBytes_chk (H : Ok G) {s : Arr Byte} {t : List Byte} (hs : RS G s t) (offset length : Nat) :
    Chk (fun a b => a = b ∧ b.length = length) (extractBytes G s offset length) (Ref.extractBytes G.toCfg t offset length) := by
  unfold extractBytes Ref.extractBytes
  refine (chk_assert' (by rw [H.lib])).bind fun _ _ h1 => (chk_assert' (by rw [H.lib])).bind fun _ _ h2 => ?_
  have h2 : offset + length ≤ G.stateSz := by simpa using h2
  obtain ⟨rfl, ht⟩ := hs
  rw [areads_of (by omega)]
  exact .ret ⟨rfl, by simp; omega⟩

theorem one_src (d : Byte) : SrcChk 1 (.arr (Arr.of [d])) (.loc [d]) := ⟨rfl, Nat.le_refl _⟩

theorem iv_src (n : Nat) : SrcChk 8 (.arr (Arr.of (G.iv n))) (.loc (G.iv n)) := ⟨rfl, by simp [Ref.Cfg.iv]⟩

theorem isapRk_chk (H : Ok G) (k : Ptr) (n : Nat) {x : CSrc} {y : Src} {inlen : Nat} (hi : 0 < inlen)
    (hx : SrcChk inlen x y) (out : Arr Byte) (outlen : Nat) (ho : outlen ≤ out.length) :
    Chk (fun a b => a = Arr.of b ++ out.drop outlen ∧ b.length = outlen) (isapRk G k (G.iv n) x inlen out outlen)
      (Ref.isapRk G.toCfg k (G.iv n) y inlen outlen) := by
  unfold isapRk Ref.isapRk
  refine .step (initState_eq H) ?_
  refine (addBytes_chk H ⟨rfl, by simp⟩ (x := .ext k) (y := .ext k) rfl).bind fun s t hs => ?_
  refine (addBytes_chk H hs (iv_src n)).bind fun s t hs => ?_
  obtain ⟨rfl, ht⟩ := hs
  refine (H.perm _ _ ht).bind fun s t hs => ?_
  refine Chk.bind (R := RS G) (chk_forN' (R := RS G) ?_ hs) fun s t hs => ?_
  · rintro j a b _ hj hab
    refine (chk_get hx (by omega)).bind ?_
    rintro d _ rfl
    refine (addBytes_chk H hab (one_src _)).bind ?_
    rintro a b ⟨rfl, hb⟩
    exact H.perm _ _ hb
  refine (chk_get hx (by omega)).bind ?_
  rintro d _ rfl
  refine (addBytes_chk H hs (one_src _)).bind ?_
  rintro a b ⟨rfl, hb⟩
  refine (H.perm _ _ hb).bind fun s t hs => ?_
  have := (extractBytes_chk H hs 0 outlen).bind (h := fun bs => awrites out 0 bs) (h' := fun bs => Pure.pure bs)
    (S := fun a b => a = Arr.of b ++ out.drop outlen ∧ b.length = outlen) ?_
  · rwa [show (Ref.extractBytes G.toCfg t 0 outlen >>= fun bs => Pure.pure bs) = Ref.extractBytes G.toCfg t 0 outlen
      from chk_bind_pure _] at this
  · rintro bs _ ⟨rfl, hl⟩
    rw [awrites_eq (by omega), hl]
    exact .ret ⟨by simp, hl⟩

theorem absorbAd_chk (H : Ok G) {s : Arr Byte} {t : List Byte} (hs : RS G s t) (ad : Ptr) (adlen : Nat) :
    Chk (RN G) (absorbAd G s ad adlen) (Ref.absorbAd G.toCfg t ad adlen) := by
  unfold absorbAd Ref.absorbAd
  refine chk_forN' (R := RN G) ?_ ⟨hs, rfl, Nat.le_refl _⟩
  rintro j ⟨a, n⟩ ⟨b, _⟩ _ hj ⟨hab, rfl, hn⟩
  refine (refill_chk H hab _ n hn).bind ?_
  rintro ⟨a, n⟩ ⟨b, _⟩ ⟨hab, rfl, h0, hn⟩
  refine (chk_load8 _).bindEq fun d => ?_
  refine (addBytes_chk H hab (one_src d)).bind fun a b hab => .ret ⟨hab, rfl, ?_⟩
  exact Nat.le_trans (Nat.sub_le _ _) hn

theorem absorbC_chk (H : Ok G) {s : Arr Byte} {t : List Byte} (hs : RS G s t) (c : Ptr) (clen : Nat) :
    Chk (RN G) (absorbC G s c clen) (Ref.absorbC G.toCfg t c clen) := by
  unfold absorbC Ref.absorbC
  refine chk_forN' (R := RN G) ?_ ⟨hs, rfl, Nat.le_refl _⟩
  rintro j ⟨a, n⟩ ⟨b, _⟩ _ hj ⟨hab, rfl, hn⟩
  refine (chk_load8 _).bindEq fun d => ?_
  refine (addBytes_chk H hab (one_src d)).bind fun a b hab => ?_
  exact (refill_chk H hab _ _ (Nat.le_trans (Nat.sub_le _ _) hn)).imp fun x y h => ⟨h.1, h.2.1, h.2.2.2⟩

/-- `overwriteBytes` of `length` elements at `offset`, the elements from there on possibly not written before. -/
theorem overwriteBytes_chk (H : Ok G) {s : Arr Byte} {t : List Byte} {offset length : Nat} (ht : t.length = G.stateSz)
    (hl : s.length = t.length) (hi : ∀ i, i < offset ∨ offset + length ≤ i → s[i]? = (Arr.of t)[i]?) {x : CSrc} {y : Src}
    (hx : SrcChk length x y) :
    Chk (RS G) (overwriteBytes G s x offset length) (Ref.overwriteBytes G.toCfg t y offset length) := by
  unfold overwriteBytes Ref.overwriteBytes
  refine (chk_assert' (by rw [H.lib])).bind fun _ _ h1 => (chk_assert' (by rw [H.lib])).bind fun _ _ h2 => ?_
  have h2 : offset + length ≤ G.stateSz := by simpa using h2
  have := chk_forN (n := length) (i := 0) (I := fun j (a : Arr Byte) (b : List Byte) => b.length = G.stateSz ∧ a.length = b.length ∧
      ∀ i, i < offset + j ∨ offset + length ≤ i → a[i]? = (Arr.of b)[i]?)
    (f := fun i st => do let d ← x.get i; aset st (offset + i) d)
    (g := fun i st => do let d ← y.get i; Pure.pure (st.set (offset + i) d)) (x := s) (y := t) ?_
    ⟨ht, hl, by simpa using hi⟩
  · refine this.imp ?_
    rintro a b ⟨hb, hab, h⟩
    refine ⟨?_, hb⟩
    apply List.ext_getElem?
    intro i
    exact h i (by omega)
  · rintro j a b _ hj ⟨hb, hab, h⟩
    refine (chk_get hx (by omega)).bind ?_
    rintro d _ rfl
    rw [aset_lt (by omega)]
    refine .ret ⟨by simpa using hb, by simpa using hab, fun i hi => ?_⟩
    have hlt : offset + j < b.length := by omega
    have hlt' : offset + j < a.length := by omega
    by_cases e : offset + j = i
    · subst e
      simp [Arr.of, hlt, hlt']
    · have := h i (by omega)
      rw [Arr.of, List.map_set, List.getElem?_set_ne e, List.getElem?_set_ne e]
      exact this

theorem isapMac_chk (H : Ok G) (k npub ad : Ptr) (adlen : Nat) (c : Ptr) (clen : Nat) :
    Chk (fun a b => a = b ∧ b.length = 16) (isapMac G k npub ad adlen c clen) (Ref.isapMac G.toCfg k npub ad adlen c clen) := by
  unfold isapMac Ref.isapMac
  refine .step (initState_eq H) ?_
  refine (addBytes_chk H ⟨rfl, by simp⟩ (x := .ext npub) (y := .ext npub) rfl).bind fun s t hs => ?_
  refine (addBytes_chk H hs (iv_src 1)).bind ?_
  rintro a b ⟨rfl, hb⟩
  refine (H.perm _ _ hb).bind fun s t hs => ?_
  refine (absorbAd_chk H hs ad adlen).bind ?_
  rintro ⟨a, n⟩ ⟨b, _⟩ ⟨hab, rfl, hn⟩
  refine (refill_chk H hab _ n hn).bind ?_
  rintro ⟨a, n⟩ ⟨b, _⟩ ⟨hab, rfl, h0, hn⟩
  refine (addBytes_chk H hab (one_src _)).bind ?_
  rintro a b ⟨rfl, hb⟩
  refine (H.perm _ _ hb).bind fun s t hs => ?_
  refine (addBytes_chk H hs (one_src _)).bind fun s t hs => ?_
  refine (absorbC_chk H hs c clen).bind ?_
  rintro ⟨a, n⟩ ⟨b, _⟩ ⟨hab, rfl, hn⟩
  refine (addBytes_chk H hab (one_src _)).bind ?_
  rintro a b ⟨rfl, hb⟩
  refine (H.perm _ _ hb).bind fun s t hs => ?_
  refine (extractBytes_chk H hs 0 16).bind ?_
  rintro y _ ⟨rfl, hy⟩
  refine .step (awrites_all (by simp [Arr.new, hy])) ?_
  refine (isapRk_chk H k 2 (by omega) (x := .arr (Arr.of y)) (y := .loc y) ⟨rfl, by omega⟩ _ 16 (by simp [Arr.new])).bind ?_
  rintro a b ⟨rfl, hb⟩
  obtain ⟨rfl, ht⟩ := hs
  refine (overwriteBytes_chk H ht (by simp) (fun i _ => rfl) (x := .arr _) (y := .loc b) ⟨?_, by omega⟩).bind ?_
  · simp [Arr.new]
  rintro a b ⟨rfl, hb⟩
  refine (H.perm _ _ hb).bind fun s t hs => ?_
  exact extractBytes_chk H hs 0 16

theorem isapEnc_chk (H : Ok G) (k npub m : Ptr) (mlen : Nat) (c : Ptr) :
    Chk Eq (isapEnc G k npub m mlen c) (Ref.isapEnc G.toCfg k npub m mlen c) := by
  have hbig := H.big
  unfold isapEnc Ref.isapEnc
  refine (isapRk_chk H k 3 (by omega) (x := .ext npub) (y := .ext npub) rfl _ (G.stateSz - 16) (by simp [Arr.new])).bind ?_
  rintro a b ⟨rfl, hb⟩
  refine (overwriteBytes_chk H (by simp [hb]; omega) (by simp [Arr.new, hb]; omega) ?_ (x := .ext npub) (y := .ext npub)
    rfl).bind ?_
  · intro i hi
    have hz : (Arr.new (α := Byte) G.stateSz).drop (G.stateSz - 16) = List.replicate 16 none := by
      simp only [Arr.new, List.drop_replicate]; congr 1; omega
    rw [hz]
    simp only [Arr.of, List.map_append, List.getElem?_append, List.length_map, hb]
    by_cases h : i < G.stateSz - 16
    · simp [h]
    · simp only [if_neg h]
      have h16 : 16 ≤ i - (G.stateSz - 16) := by omega
      simp [show ¬ i - (G.stateSz - 16) < 16 by omega]
  rintro a b hab
  refine Chk.bind (R := RN G) (chk_forN'
    (R := RN G) ?_ ⟨hab, rfl, Nat.zero_le _⟩) fun _ _ _ => .ret rfl
  rintro j ⟨a, n⟩ ⟨b, _⟩ _ hj ⟨hab, rfl, hn⟩
  refine (refill_chk H hab _ n hn).bind ?_
  rintro ⟨a, n⟩ ⟨b, _⟩ ⟨hab, rfl, h0, hn⟩
  refine (extractBytes_chk H hab _ 1).bind ?_
  rintro y _ ⟨rfl, hy⟩
  refine .step (awrites_all (by simp [Arr.new, hy])) ?_
  refine (chk_load8 _).bindEq fun d => ?_
  refine .step (aget_ofD 0 (by omega)) ?_
  refine (chk_store8 _ _).bindEq fun _ => .ret ⟨hab, rfl, Nat.le_trans (Nat.sub_le _ _) hn⟩

end Model.Ref.Chk
