import Verif.Props.Design
import Verif.Props.Hash
/-!
# Equal tags and equal digests come from collisions (C42)

The tag and the digest are short, so different inputs with the same tag or digest exist.  The theorems here say that the code adds
no way of its own to find them: whoever presents two such inputs presents a collision of the sponge construction, of the
re-keying function or of the truncated permutation.
-/

namespace Props
open C Model Spec

/-- The state of ISAP_MAC after the nonce and the blocks `pre` were absorbed. -/
def reached (P : Params) (N : List Byte) (pre : List (List Byte × Bool)) : List Byte :=
  pre.foldl (absorbStep P) (P.pH (P.initState N P.ivA))

/-- An inner collision: after different inputs, which are the nonces and proper prefixes of what is absorbed in the two
computations, the states agree in all bytes beyond the rate. -/
def InnerCollision (P : Params) (N A C N' A' C' : List Byte) : Prop :=
  ∃ pre pre' : List (List Byte × Bool),
    (∃ B rest, absorbed P.r A C = pre ++ B :: rest) ∧ (∃ B rest, absorbed P.r A' C' = pre' ++ B :: rest) ∧
    (N, pre) ≠ (N', pre') ∧ (reached P N pre).drop P.r = (reached P N' pre').drop P.r

/-- A collision of the re-keying function: the absorption reaches two states that differ only in their first 16 bytes, and from
these 16 bytes the same session key is derived. -/
def RekeyCollision (P : Params) (K N A C N' A' C' : List Byte) : Prop :=
  let S := reached P N (absorbed P.r A C)
  let S' := reached P N' (absorbed P.r A' C')
  S.take 16 ≠ S'.take 16 ∧ S.drop 16 = S'.drop 16 ∧ P.rk K P.ivKA (S.take 16) 16 = P.rk K P.ivKA (S'.take 16) 16

/-- A collision of the finalisation: two different states, each made of a session key and a part of a state that the
absorption reaches, whose images under `p_H` have the same first 16 bytes. -/
def FinalCollision (P : Params) (K N A C N' A' C' : List Byte) : Prop :=
  let S := reached P N (absorbed P.r A C)
  let S' := reached P N' (absorbed P.r A' C')
  let U := P.rk K P.ivKA (S.take 16) 16 ++ S.drop 16
  let U' := P.rk K P.ivKA (S'.take 16) 16 ++ S'.drop 16
  U ≠ U' ∧ (P.pH U).take 16 = (P.pH U').take 16

theorem bijOn_perm (p : ParamSet) (k : Nat) : BijOn p.spec.n (p.spec.perm k) := by
  cases p
  · exact bijOn_ascon (Ascon.p_bijective k)
  · exact bijOn_ascon (Ascon.p_bijective k)
  · exact Keccak.bijOn (Keccak.p_bijective k)
  · exact Keccak.bijOn (Keccak.p_bijective k)

theorem wf_spec (p : ParamSet) : p.spec.Wf where
  r_pos := by cases p <;> decide
  r_lt := by cases p <;> decide
  n_ge := by cases p <;> decide
  perm_len k S h := (bijOn_perm p k).len S h

theorem length_of_mem_chunks {r : Nat} (hr : 0 < r) (k : Nat) (X : List Byte) (hX : X.length = k * r) :
    ∀ B ∈ chunks r X, B.length = r := by
  induction k generalizing X with
  | zero =>
    have : X = [] := List.length_eq_zero_iff.1 (by omega)
    rw [this, chunks_nil]; intro B h; cases h
  | succ k ih =>
    have hk : X.length = k * r + r := by rw [hX, Nat.succ_mul]
    rw [chunks_cons hr (by intro h; rw [h] at hk; simp at hk; omega)]
    intro B hB
    rcases List.mem_cons.1 hB with rfl | hB
    · rw [List.length_take]; omega
    · exact ih _ (by rw [List.length_drop]; omega) B hB

/-- All blocks have the length of the rate. -/
theorem length_of_mem_blocks {r : Nat} (hr : 0 < r) (X : List Byte) : ∀ B ∈ blocks r X, B.length = r := by
  refine length_of_mem_chunks hr ((pad r X).length / r) _ ?_
  have : (pad r X).length % r = 0 := by
    have hl : (pad r X).length = X.length + 1 + (r - (X.length + 1) % r) % r := by simp [pad, zeros]; omega
    rw [hl]
    by_cases h : (X.length + 1) % r = 0
    · rw [h, Nat.sub_zero, Nat.mod_self, Nat.add_zero, h]
    · have := Nat.mod_lt (X.length + 1) hr
      rw [Nat.mod_eq_of_lt (by omega : r - (X.length + 1) % r < r)]
      have e := Nat.div_add_mod (X.length + 1) r
      have : X.length + 1 + (r - (X.length + 1) % r) = r * ((X.length + 1) / r + 1) := by rw [Nat.mul_add, Nat.mul_one]; omega
      rw [this, Nat.mul_mod_right]
  have := Nat.div_add_mod' (pad r X).length r
  omega

theorem length_of_mem_absorbed {r : Nat} (hr : 0 < r) (A C : List Byte) : ∀ B ∈ absorbed r A C, B.1.length = r := by
  intro B hB
  rw [absorbed, List.mem_append, List.mem_cons] at hB
  rcases hB with h | rfl | h
  · obtain ⟨B', h', rfl⟩ := List.mem_map.1 h
    exact length_of_mem_blocks hr A _ (List.dropLast_subset _ h')
  · simp only [List.getLastD_eq_getLast?, List.getLast?_eq_some_getLast (blocks_ne_nil hr A), Option.getD_some]
    exact length_of_mem_blocks hr A _ (List.getLast_mem _)
  · obtain ⟨B', h', rfl⟩ := List.mem_map.1 h
    exact length_of_mem_blocks hr C _ h'

/-- The last absorbed block belongs to the ciphertext: no domain separation after it. -/
theorem absorbed_last {r : Nat} (hr : 0 < r) (A C : List Byte) : ∃ pre B, absorbed r A C = pre ++ [(B, false)] := by
  have := List.dropLast_concat_getLast (blocks_ne_nil hr C)
  refine ⟨(blocks r A).dropLast.map (·, false) ++ ((blocks r A).getLastD [], true) :: (blocks r C).dropLast.map (·, false),
    (blocks r C).getLast (blocks_ne_nil hr C), ?_⟩
  rw [absorbed]
  conv => lhs; rw [← this]
  simp

theorem length_reached {P : Params} (W : P.Wf) {N : List Byte} (hN : N.length = 16) (pre : List (List Byte × Bool))
    (h : ∀ B ∈ pre, B.1.length = P.r) : (reached P N pre).length = P.n := by
  have : ∀ (pre : List (List Byte × Bool)) (S : List Byte), (∀ B ∈ pre, B.1.length = P.r) → S.length = P.n →
      (pre.foldl (absorbStep P) S).length = P.n := by
    intro pre
    induction pre with
    | nil => intro S _ h; exact h
    | cons B pre ih =>
      intro S hB hS
      refine ih _ (fun B h => hB B (List.mem_cons_of_mem _ h)) ?_
      have hl : (P.pH (xorFront S B.1)).length = P.n :=
        W.len_pH (by rw [length_xorFront (by rw [hB B (List.mem_cons_self), hS]; exact Nat.le_of_lt W.r_lt), hS])
      unfold absorbStep
      split
      · rw [Params.domSep_eq W hl, length_xorAt, hl]
      · exact hl
  exact this _ _ h (W.len_pH (Params.length_initState W 1 hN))

theorem reached_append (P : Params) (N : List Byte) (pre : List (List Byte × Bool)) (B : List Byte) :
    reached P N (pre ++ [(B, false)]) = P.pH (xorFront (reached P N pre) B) := by
  simp [reached, absorbStep]

theorem drop_xorFront {S B : List Byte} (h : B.length ≤ S.length) : (xorFront S B).drop B.length = S.drop B.length := by
  rw [xorFront, List.drop_append_of_le_length (by simp [xorBytes]; omega), List.drop_of_length_le (by simp [xorBytes]; omega),
    List.nil_append]

theorem xorFront_inj {S B B' : List Byte} (hl : B.length = B'.length) (h : B.length ≤ S.length)
    (he : xorFront S B = xorFront S B') : B = B' := by
  rw [xorFront, xorFront, ← hl] at he
  have h1 := (List.append_inj he (by simp [xorBytes, hl])).1
  apply List.ext_getElem hl
  intro i hi hi'
  have h2 : (xorBytes (S.take B.length) B)[i]? = (xorBytes (S.take B.length) B')[i]? := by rw [h1]
  simp only [xorBytes, List.getElem?_zipWith, List.getElem?_eq_getElem hi, List.getElem?_eq_getElem hi',
    List.getElem?_eq_getElem (show i < (S.take B.length).length by simp; omega), Option.some.injEq] at h2
  exact BitVec.xor_right_inj _ |>.1 h2

/-- Two different inputs have the same tag under a key only if there is a collision, for ISAP with any bijection in place of the permutation. -/
theorem collision_of_same_tag {P : Params} (W : P.Wf) (bij : BijOn P.n (P.perm P.sH)) (K N A C N' A' C' : List Byte)
    (hK : K.length = 16) (hN : N.length = 16) (hN' : N'.length = 16) (hne : (N, A, C) ≠ (N', A', C'))
    (h : P.mac K N A C = P.mac K N' A' C') :
    InnerCollision P N A C N' A' C' ∨ RekeyCollision P K N A C N' A' C' ∨ FinalCollision P K N A C N' A' C' := by
  rw [C24_mac_of_absorbed _ W.r_pos, C24_mac_of_absorbed _ W.r_pos] at h
  have hlS := length_reached W hN _ (length_of_mem_absorbed W.r_pos A C)
  have hlS' := length_reached W hN' _ (length_of_mem_absorbed W.r_pos A' C')
  by_cases hS : reached P N (absorbed P.r A C) = reached P N' (absorbed P.r A' C')
  · refine Or.inl ?_
    obtain ⟨pre, B, hp⟩ := absorbed_last W.r_pos A C
    obtain ⟨pre', B', hp'⟩ := absorbed_last W.r_pos A' C'
    have hm := length_of_mem_absorbed W.r_pos A C
    have hm' := length_of_mem_absorbed W.r_pos A' C'
    rw [hp] at hm
    rw [hp'] at hm'
    have hB : B.length = P.r := hm (B, false) (by simp)
    have hB' : B'.length = P.r := hm' (B', false) (by simp)
    have hl := length_reached W hN pre fun B h => hm B (List.mem_append_left _ h)
    have hl' := length_reached W hN' pre' fun B h => hm' B (List.mem_append_left _ h)
    have hr := W.r_lt
    rw [hp, hp', reached_append, reached_append] at hS
    have hx := bij.inj _ _ (by rw [length_xorFront (by omega), hl]) (by rw [length_xorFront (by omega), hl']) hS
    refine ⟨pre, pre', ⟨_, [], hp⟩, ⟨_, [], hp'⟩, ?_, ?_⟩
    · intro he
      obtain ⟨rfl, rfl⟩ := Prod.mk.inj he
      have := xorFront_inj (hB.trans hB'.symm) (by omega) hx
      subst this
      obtain ⟨rfl, rfl⟩ := C24_injective _ W.r_pos A C A' C' (hp.trans hp'.symm)
      exact hne rfl
    · have := congrArg (List.drop P.r) hx
      have e1 := drop_xorFront (S := reached P N pre) (B := B) (by omega)
      have e2 := drop_xorFront (S := reached P N' pre') (B := B') (by omega)
      rw [hB] at e1
      rw [hB'] at e2
      rwa [e1, e2] at this
  · refine Or.inr ?_
    generalize hU : reached P N (absorbed P.r A C) = S at *
    generalize hU' : reached P N' (absorbed P.r A' C') = S' at *
    have := W.n_ge
    by_cases hUU : P.rk K P.ivKA (S.take 16) 16 ++ S.drop 16 = P.rk K P.ivKA (S'.take 16) 16 ++ S'.drop 16
    · left
      have hlen : ∀ Y : List Byte, Y.length = 16 → (P.rk K P.ivKA Y 16).length = 16 := by
        intro Y hY
        exact Params.length_rk W 2 16 hK hY (by omega)
      obtain ⟨h1, h2⟩ := List.append_inj hUU (by rw [hlen _ (by simp; omega), hlen _ (by simp; omega)])
      unfold RekeyCollision
      simp only [hU, hU']
      refine ⟨?_, h2, h1⟩
      intro ht
      exact hS (by rw [← List.take_append_drop 16 S, ← List.take_append_drop 16 S', ht, h2])
    · right
      unfold FinalCollision
      simp only [hU, hU']
      refine ⟨hUU, ?_⟩
      change tagOf P K (reached _ _ _) = tagOf P K (reached _ _ _) at h
      rw [hU, hU'] at h
      exact h

/-- **C42**: two different inputs (nonce, associated data, ciphertext) have the same tag under a key only if there is a collision of
one of the three kinds. -/
theorem C42_same_tag (p : ParamSet) (K N A C N' A' C' : List Byte) (hK : K.length = 16) (hN : N.length = 16) (hN' : N'.length = 16)
    (hne : (N, A, C) ≠ (N', A', C')) (h : p.spec.mac K N A C = p.spec.mac K N' A' C') :
    InnerCollision p.spec N A C N' A' C' ∨ RekeyCollision p.spec K N A C N' A' C' ∨ FinalCollision p.spec K N A C N' A' C' :=
  collision_of_same_tag (wf_spec p) (bijOn_perm p _) _ _ _ _ _ _ _ hK hN hN' hne h

/-- **C42**, for the code: if a ciphertext made by one implementation and a ciphertext accepted by an implementation of the same
parameter set have the same key and the same tag, but differ in the nonce, the associated data or the body, then there is a
collision. -/
theorem C42_accepted_tag (t t' : Target) (hc : t.conforming = true) (hc' : t'.conforming = true) (hset : t.set = t'.set)
    (hstp : t'.stp = false) (e e' : Env) (s s1 s' s1' : St) (a : EncArgs) (d : DecArgs) (r : Int)
    (V : ValidEnc e a) (L : t.limits.Enc e a) (V' : ValidDec e' d) (L' : t'.limits.Dec e' d)
    (h : Runs (t.aead.encrypt a) e s r s1) (h' : Runs (t'.aead.decrypt d) e' s' 0 s1')
    (hk : bytesAt s a.k 16 = bytesAt s' d.k 16)
    (htag : bytesAt s1 (a.c + a.mlen) 16 = bytesAt s' (d.c + (d.clen - 16)) 16)
    (hne : (bytesAt s a.npub 16, bytesAt s a.ad a.adlen, bytesAt s1 a.c a.mlen) ≠
      (bytesAt s' d.npub 16, bytesAt s' d.ad d.adlen, bytesAt s' d.c (d.clen - 16))) :
    let P := t.set.spec
    let K := bytesAt s a.k 16
    let N := bytesAt s a.npub 16
    let A := bytesAt s a.ad a.adlen
    let C := bytesAt s1 a.c a.mlen
    let N' := bytesAt s' d.npub 16
    let A' := bytesAt s' d.ad d.adlen
    let C' := bytesAt s' d.c (d.clen - 16)
    InnerCollision P N A C N' A' C' ∨ RekeyCollision P K N A C N' A' C' ∨ FinalCollision P K N A C N' A' C' := by
  refine C42_same_tag t.set _ _ _ _ _ _ _ (by simp) (by simp) (by simp) hne ?_
  have hb := enc_c V L h
  rw [bytesAt_add, Target.out, t.spec_eq hc, Params.encrypt] at hb
  obtain ⟨h1, h2⟩ := List.append_inj hb (by simp)
  have a2 := (dec_zero V' L' h').1
  rw [Target.accepts, Target.acc, if_neg (by rw [hstp]; decide), t'.spec_eq hc', ← hset] at a2
  rw [← h1] at h2
  rw [← h2, htag, a2, hk]

/-- **C42**, for the code: the same for two accepted ciphertexts. -/
theorem C42_two_accepted (t t' : Target) (hc : t.conforming = true) (hc' : t'.conforming = true) (hset : t.set = t'.set)
    (hstp : t.stp = false) (hstp' : t'.stp = false) (e e' : Env) (s s1 s' s1' : St) (d d' : DecArgs)
    (V : ValidDec e d) (L : t.limits.Dec e d) (V' : ValidDec e' d') (L' : t'.limits.Dec e' d')
    (h : Runs (t.aead.decrypt d) e s 0 s1) (h' : Runs (t'.aead.decrypt d') e' s' 0 s1')
    (hk : bytesAt s d.k 16 = bytesAt s' d'.k 16)
    (htag : bytesAt s (d.c + (d.clen - 16)) 16 = bytesAt s' (d'.c + (d'.clen - 16)) 16)
    (hne : (bytesAt s d.npub 16, bytesAt s d.ad d.adlen, bytesAt s d.c (d.clen - 16)) ≠
      (bytesAt s' d'.npub 16, bytesAt s' d'.ad d'.adlen, bytesAt s' d'.c (d'.clen - 16))) :
    let P := t.set.spec
    let K := bytesAt s d.k 16
    let N := bytesAt s d.npub 16
    let A := bytesAt s d.ad d.adlen
    let C := bytesAt s d.c (d.clen - 16)
    let N' := bytesAt s' d'.npub 16
    let A' := bytesAt s' d'.ad d'.adlen
    let C' := bytesAt s' d'.c (d'.clen - 16)
    InnerCollision P N A C N' A' C' ∨ RekeyCollision P K N A C N' A' C' ∨ FinalCollision P K N A C N' A' C' := by
  refine C42_same_tag t.set _ _ _ _ _ _ _ (by simp) (by simp) (by simp) hne ?_
  have a1 := (dec_zero V L h).1
  have a2 := (dec_zero V' L' h').1
  rw [Target.accepts, Target.acc, if_neg (by rw [hstp]; decide), t.spec_eq hc] at a1
  rw [Target.accepts, Target.acc, if_neg (by rw [hstp']; decide), t'.spec_eq hc', ← hset] at a2
  rw [← a1, htag, a2, hk]

/-! ### The hypotheses can be met

There are more inputs than tags.  So for every key there are inputs with the same tag, although none can be written down. -/

theorem pigeonhole (n : Nat) (f : Nat → Nat) (hf : ∀ i, i ≤ n → f i < n) : ∃ i j, i < j ∧ j ≤ n ∧ f i = f j := by
  induction n generalizing f with
  | zero => exact absurd (hf 0 (Nat.le_refl _)) (Nat.not_lt_zero _)
  | succ n ih =>
    by_cases h : ∃ i, i ≤ n ∧ f i = f (n + 1)
    · obtain ⟨i, hi, he⟩ := h
      exact ⟨i, n + 1, by omega, Nat.le_refl _, he⟩
    · have hne : ∀ i, i ≤ n → f i ≠ f (n + 1) := fun i hi he => h ⟨i, hi, he⟩
      have hl := hf (n + 1) (Nat.le_refl _)
      obtain ⟨i, j, hij, hj, he⟩ := ih (fun i => if f i = n then f (n + 1) else f i) (by
        intro i hi
        have h1 := hf i (by omega)
        have h2 := hne i hi
        show (if f i = n then f (n + 1) else f i) < n
        split <;> omega)
      refine ⟨i, j, hij, by omega, ?_⟩
      have h1 := hne i (by omega)
      have h2 := hne j hj
      split at he <;> split at he <;> omega

/-- `k` base-256 digits of a number, and the number of a list of digits. -/
def digits : Nat → Nat → List Byte
  | 0, _ => []
  | k + 1, i => BitVec.ofNat 8 i :: digits k (i / 256)

def number : List Byte → Nat
  | [] => 0
  | b :: L => b.toNat + 256 * number L

theorem length_digits (k i : Nat) : (digits k i).length = k := by
  induction k generalizing i with
  | zero => rfl
  | succ k ih => simp [digits, ih]

theorem number_digits (k i : Nat) (h : i < 256 ^ k) : number (digits k i) = i := by
  induction k generalizing i with
  | zero => rw [Nat.pow_zero] at h; rw [digits, number]; omega
  | succ k ih =>
    rw [digits, number, ih _ (by rw [Nat.pow_succ] at h; omega), BitVec.toNat_ofNat]
    omega

theorem number_lt (L : List Byte) : number L < 256 ^ L.length := by
  induction L with
  | nil => decide
  | cons b L ih =>
    have := b.isLt
    rw [number, List.length_cons, Nat.pow_succ]; omega

theorem number_inj {L L' : List Byte} (hl : L.length = L'.length) (h : number L = number L') : L = L' := by
  induction L generalizing L' with
  | nil => exact (List.length_eq_zero_iff.1 hl.symm).symm
  | cons b L ih =>
    cases L' with
    | nil => simp at hl
    | cons b' L' =>
      have h1 := b.isLt
      have h2 := b'.isLt
      rw [number, number] at h
      rw [ih (by simpa using hl) (by omega), BitVec.eq_of_toNat_eq (show b.toNat = b'.toNat by omega)]

/-- A function from lists of `k` bytes to shorter lists of fixed length takes some value twice. -/
theorem exists_collision (k l : Nat) (hl : l < k) (f : List Byte → List Byte) (hf : ∀ X, X.length = k → (f X).length = l) :
    ∃ X Y, X.length = k ∧ Y.length = k ∧ X ≠ Y ∧ f X = f Y := by
  have hp : 256 ^ l < 256 ^ k := Nat.pow_lt_pow_right (by decide) hl
  obtain ⟨i, j, hij, hj, he⟩ := pigeonhole (256 ^ l) (fun i => number (f (digits k i))) (by
    intro i _
    have := number_lt (f (digits k i))
    rwa [hf _ (length_digits k i)] at this)
  refine ⟨digits k i, digits k j, length_digits _ _, length_digits _ _, ?_, ?_⟩
  · intro h
    have := congrArg number h
    rw [number_digits _ _ (by omega), number_digits _ _ (by omega)] at this
    omega
  · exact number_inj (by rw [hf _ (length_digits _ _), hf _ (length_digits _ _)]) he

/-- For every key and associated data, there are two inputs with 3 bytes of ciphertext and the same tag. -/
theorem exists_same_tag (p : ParamSet) (K A : List Byte) (hK : K.length = 16) : ∃ N C N' C', N.length = 16 ∧ N'.length = 16 ∧
    C.length = 3 ∧ C'.length = 3 ∧ (N, A, C) ≠ (N', A, C') ∧ p.spec.mac K N A C = p.spec.mac K N' A C' := by
  obtain ⟨X, Y, hX, hY, hne, h⟩ := exists_collision 19 16 (by decide) (fun X => p.spec.mac K (X.take 16) A (X.drop 16))
    (fun X hX => Params.length_mac (wf_spec p) _ _ hK (by simp; omega))
  refine ⟨X.take 16, X.drop 16, Y.take 16, Y.drop 16, by simp; omega, by simp; omega, by simp; omega, by simp; omega, ?_, h⟩
  intro he
  simp only [Prod.mk.injEq, true_and] at he
  exact hne (by rw [← List.take_append_drop 16 X, ← List.take_append_drop 16 Y, he.1, he.2])

example (p : ParamSet) (K : List Byte) (hK : K.length = 16) : ∃ N A C N' A' C', N.length = 16 ∧ N'.length = 16 ∧
    (N, A, C) ≠ (N', A', C') ∧ p.spec.mac K N A C = p.spec.mac K N' A' C' := by
  obtain ⟨N, C, N', C', h1, h2, _, _, h5, h6⟩ := exists_same_tag p K [] hK
  exact ⟨N, [], C, N', [], C', h1, h2, h5, h6⟩

/-- The memory `Sample.st` with other bytes in the nonce, the message and the ciphertext. -/
def collSt (N M C : List Byte) : St := putBytes (putBytes (putBytes Sample.st ⟨4, 0⟩ N) ⟨2, 0⟩ M) ⟨0, 0⟩ C

theorem collSt_k (N M C : List Byte) : bytesAt (collSt N M C) ⟨5, 0⟩ 16 = bytesAt Sample.st ⟨5, 0⟩ 16 := by
  simp [collSt, bytesAt, putBytes_mem]

theorem collSt_ad (N M C : List Byte) : bytesAt (collSt N M C) ⟨3, 0⟩ 20 = bytesAt Sample.st ⟨3, 0⟩ 20 := by
  simp [collSt, bytesAt, putBytes_mem]

theorem collSt_n {N : List Byte} (M C : List Byte) (hN : N.length = 16) : bytesAt (collSt N M C) ⟨4, 0⟩ 16 = N := by
  rw [collSt, bytesAt_putBytes_disjoint _ _ _ _ _ (by simp [Disjoint]), bytesAt_putBytes_disjoint _ _ _ _ _ (by simp [Disjoint]),
    bytesAt_putBytes_same' _ _ _ hN]

theorem collSt_m {M : List Byte} (N C : List Byte) (hM : M.length = 3) : bytesAt (collSt N M C) ⟨2, 0⟩ 3 = M := by
  rw [collSt, bytesAt_putBytes_disjoint _ _ _ _ _ (by simp [Disjoint]), bytesAt_putBytes_same' _ _ _ hM]

theorem collSt_c {C : List Byte} (N M : List Byte) (hC : C.length = 19) : bytesAt (collSt N M C) ⟨0, 0⟩ 19 = C := by
  rw [collSt, bytesAt_putBytes_same' _ _ _ hC]

/-- Concrete calls meet the hypotheses of `C42_accepted_tag`, for all pairs of implementations it is about. -/
example (t t' : Target) (hc : t.conforming = true) (hc' : t'.conforming = true) (hset : t.set = t'.set) :
    ∃ s s1 s' s1', Runs (t.aead.encrypt Sample.enc) Sample.env s 0 s1 ∧ Runs (t'.aead.decrypt Sample.dec) Sample.env s' 0 s1' ∧
      bytesAt s ⟨5, 0⟩ 16 = bytesAt s' ⟨5, 0⟩ 16 ∧ bytesAt s1 ⟨0, 3⟩ 16 = bytesAt s' ⟨0, 3⟩ 16 ∧
      (bytesAt s ⟨4, 0⟩ 16, bytesAt s ⟨3, 0⟩ 20, bytesAt s1 ⟨0, 0⟩ 3) ≠
        (bytesAt s' ⟨4, 0⟩ 16, bytesAt s' ⟨3, 0⟩ 20, bytesAt s' ⟨0, 0⟩ 3) := by
  let K := bytesAt Sample.st ⟨5, 0⟩ 16
  let A := bytesAt Sample.st ⟨3, 0⟩ 20
  obtain ⟨N, C, N', C', hN, hN', hC, hC', hne, h⟩ := exists_same_tag t.set K A (by simp [K])
  have hM : (t.set.spec.enc K N C).length = 3 := by rw [Params.length_enc, hC]
  let s := collSt N (t.set.spec.enc K N C) []
  let s' := collSt N' [] (C' ++ t.set.spec.mac K N' A C')
  have hT : (t.set.spec.mac K N' A C').length = 16 := Params.length_mac (wf_spec _) _ _ (by simp [K]) hN'
  have hs' : bytesAt s' ⟨0, 0⟩ 19 = C' ++ t.set.spec.mac K N' A C' := collSt_c _ _ (by rw [List.length_append, hC', hT])
  obtain ⟨s1, r1, hm1⟩ := t.encryptOK _ s _ Sample.validEnc (Sample.limitsEnc t)
  have hb := enc_c Sample.validEnc (Sample.limitsEnc t) r1
  have hout : t.out s Sample.enc = C ++ t.set.spec.mac K N A C := by
    rw [Target.out, t.spec_eq hc]
    show t.set.spec.encrypt (bytesAt s ⟨5, 0⟩ 16) (bytesAt s ⟨4, 0⟩ 16) (bytesAt s ⟨3, 0⟩ 20) (bytesAt s ⟨2, 0⟩ 3) = _
    rw [collSt_k, collSt_ad, collSt_n _ _ hN, collSt_m _ _ hM, Params.encrypt]
    show t.set.spec.enc K N (t.set.spec.enc K N C) ++ t.set.spec.mac K N A (t.set.spec.enc K N (t.set.spec.enc K N C)) = _
    rw [Params.enc_enc]
  rw [hout] at hb
  obtain ⟨h1, h2⟩ := List.append_inj ((bytesAt_add s1 ⟨0, 0⟩ 3 16).symm.trans hb) (by rw [hC]; simp)
  obtain ⟨h3, h4⟩ := List.append_inj ((bytesAt_add s' ⟨0, 0⟩ 3 16).symm.trans hs') (by rw [hC']; simp)
  have hacc : t'.accepts s' Sample.dec := by
    refine (accepts_of_encrypt (by decide) (collSt_k _ _ _) (collSt_n _ _ hN') (collSt_ad _ _ _)
      (M := t.set.spec.enc K N' C') ?_).1
    rw [t'.spec_eq hc', ← hset, Params.encrypt]
    refine hs'.trans ?_
    show _ = t.set.spec.enc K N' (t.set.spec.enc K N' C') ++ t.set.spec.mac K N' A (t.set.spec.enc K N' (t.set.spec.enc K N' C'))
    rw [Params.enc_enc]
  obtain ⟨s1', r2, _⟩ := dec_accept Sample.validDec (Sample.limitsDec t') hacc
  refine ⟨s, s1, s', s1', r1, r2, (collSt_k _ _ _).trans (collSt_k _ _ _).symm, h2.trans (h.trans h4.symm), ?_⟩
  rw [h1, h3, collSt_n _ _ hN, collSt_n _ _ hN', collSt_ad, collSt_ad]
  exact hne

/-- And those of `C42_two_accepted`. -/
example (t : Target) (hc : t.conforming = true) :
    ∃ s s1 s' s1', Runs (t.aead.decrypt Sample.dec) Sample.env s 0 s1 ∧ Runs (t.aead.decrypt Sample.dec) Sample.env s' 0 s1' ∧
      bytesAt s ⟨5, 0⟩ 16 = bytesAt s' ⟨5, 0⟩ 16 ∧ bytesAt s ⟨0, 3⟩ 16 = bytesAt s' ⟨0, 3⟩ 16 ∧
      (bytesAt s ⟨4, 0⟩ 16, bytesAt s ⟨3, 0⟩ 20, bytesAt s ⟨0, 0⟩ 3) ≠
        (bytesAt s' ⟨4, 0⟩ 16, bytesAt s' ⟨3, 0⟩ 20, bytesAt s' ⟨0, 0⟩ 3) := by
  let K := bytesAt Sample.st ⟨5, 0⟩ 16
  let A := bytesAt Sample.st ⟨3, 0⟩ 20
  obtain ⟨N, C, N', C', hN, hN', hC, hC', hne, h⟩ := exists_same_tag t.set K A (by simp [K])
  have key : ∀ N C : List Byte, N.length = 16 → C.length = 3 →
      ∃ s1, Runs (t.aead.decrypt Sample.dec) Sample.env (collSt N [] (C ++ t.set.spec.mac K N A C)) 0 s1 ∧
        bytesAt (collSt N [] (C ++ t.set.spec.mac K N A C)) ⟨0, 0⟩ 3 = C ∧
        bytesAt (collSt N [] (C ++ t.set.spec.mac K N A C)) ⟨0, 3⟩ 16 = t.set.spec.mac K N A C := by
    intro N C hN hC
    have hT : (t.set.spec.mac K N A C).length = 16 := Params.length_mac (wf_spec _) _ _ (by simp [K]) hN
    generalize hs : collSt N [] (C ++ t.set.spec.mac K N A C) = s'
    have hs' : bytesAt s' ⟨0, 0⟩ 19 = C ++ t.set.spec.mac K N A C := by
      rw [← hs]; exact collSt_c _ _ (by rw [List.length_append, hC, hT])
    obtain ⟨h3, h4⟩ := List.append_inj ((bytesAt_add s' ⟨0, 0⟩ 3 16).symm.trans hs') (by rw [hC]; simp)
    have hacc : t.accepts s' Sample.dec := by
      refine (accepts_of_encrypt (by decide) (K := K) (N := N) (A := A) (by rw [← hs]; exact collSt_k _ _ _)
        (by rw [← hs]; exact collSt_n _ _ hN) (by rw [← hs]; exact collSt_ad _ _ _) (M := t.set.spec.enc K N C) ?_).1
      rw [t.spec_eq hc, Params.encrypt]
      refine hs'.trans ?_
      show _ = t.set.spec.enc K N (t.set.spec.enc K N C) ++ t.set.spec.mac K N A (t.set.spec.enc K N (t.set.spec.enc K N C))
      rw [Params.enc_enc]
    obtain ⟨s1, r, _⟩ := dec_accept Sample.validDec (Sample.limitsDec t) hacc
    exact ⟨s1, r, h3, h4⟩
  obtain ⟨s1, r1, h1, h2⟩ := key N C hN hC
  obtain ⟨s1', r2, h3, h4⟩ := key N' C' hN' hC'
  refine ⟨_, s1, _, s1', r1, r2, (collSt_k _ _ _).trans (collSt_k _ _ _).symm, h2.trans (h.trans h4.symm), ?_⟩
  rw [h1, h3, collSt_n _ _ hN, collSt_n _ _ hN', collSt_ad, collSt_ad]
  exact hne

/-! ## The hash -/

/-- The state of Ascon-Hash after the blocks `pre`. -/
def hashReached (pre : List (List Byte)) : List Byte :=
  pre.foldl (fun S B => Ascon.perm 12 (xorFront S B)) (Ascon.perm 12 (AsconHash.iv ++ zeros 32))

/-- Different proper prefixes of the absorbed blocks lead to states that agree beyond the rate. -/
def HashInnerCollision (M M' : List Byte) : Prop :=
  ∃ pre pre' : List (List Byte), (∃ B rest, blocks 8 M = pre ++ B :: rest) ∧ (∃ B rest, blocks 8 M' = pre' ++ B :: rest) ∧
    pre ≠ pre' ∧ (hashReached pre).drop 8 = (hashReached pre').drop 8

/-- Different final states from which the same 32 bytes are squeezed. -/
def HashOutputCollision (M M' : List Byte) : Prop :=
  hashReached (blocks 8 M) ≠ hashReached (blocks 8 M') ∧
    ∀ i < 4, (Nat.repeat (Ascon.perm 12) i (hashReached (blocks 8 M))).take 8 =
      (Nat.repeat (Ascon.perm 12) i (hashReached (blocks 8 M'))).take 8

theorem length_hashReached (pre : List (List Byte)) : (hashReached pre).length = 40 := by
  unfold hashReached
  rcases List.eq_nil_or_concat pre with rfl | ⟨pre, B, rfl⟩
  · simp [Ascon.perm]
  · simp [Ascon.perm]

/-- **C42**: two different messages have the same digest only if there is a collision of the sponge. -/
theorem C42_same_digest (M M' : List Byte) (hne : M ≠ M') (h : AsconHash.hash M = AsconHash.hash M') :
    HashInnerCollision M M' ∨ HashOutputCollision M M' := by
  by_cases hS : hashReached (blocks 8 M) = hashReached (blocks 8 M')
  · left
    have hd := List.dropLast_concat_getLast (blocks_ne_nil (r := 8) (by decide) M)
    have hd' := List.dropLast_concat_getLast (blocks_ne_nil (r := 8) (by decide) M')
    have hB := length_of_mem_blocks (r := 8) (by decide) M _ (List.getLast_mem (blocks_ne_nil (r := 8) (by decide) M))
    have hB' := length_of_mem_blocks (r := 8) (by decide) M' _ (List.getLast_mem (blocks_ne_nil (r := 8) (by decide) M'))
    generalize (blocks 8 M).getLast _ = B at hd hB
    generalize (blocks 8 M').getLast _ = B' at hd' hB'
    generalize (blocks 8 M).dropLast = pre at hd
    generalize (blocks 8 M').dropLast = pre' at hd'
    have ap : ∀ (pre : List (List Byte)) (B : List Byte),
        hashReached (pre ++ [B]) = Ascon.perm 12 (xorFront (hashReached pre) B) := by
      intro pre B; simp [hashReached]
    have hl := length_hashReached pre
    have hl' := length_hashReached pre'
    rw [← hd, ← hd', ap, ap] at hS
    have hx := (bijOn_ascon (Ascon.p_bijective 12)).inj _ _ (by rw [length_xorFront (by omega), hl])
      (by rw [length_xorFront (by omega), hl']) hS
    refine ⟨pre, pre', ⟨B, [], hd.symm⟩, ⟨B', [], hd'.symm⟩, ?_, ?_⟩
    · rintro rfl
      have := xorFront_inj (hB.trans hB'.symm) (by omega) hx
      exact hne (blocks_inj (r := 8) (by decide) (by rw [← hd, ← hd', this]))
    · have := congrArg (List.drop 8) hx
      have e1 := drop_xorFront (S := hashReached pre) (B := B) (by omega)
      have e2 := drop_xorFront (S := hashReached pre') (B := B') (by omega)
      rw [hB] at e1
      rw [hB'] at e2
      rwa [e1, e2] at this
  · right
    refine ⟨hS, ?_⟩
    have hl : ∀ i, ∀ pre, ((Nat.repeat (Ascon.perm 12) i (hashReached pre)).take 8).length = 8 := by
      intro i pre
      cases i with
      | zero => rw [List.length_take]; have := length_hashReached pre; simp only [Nat.repeat]; omega
      | succ i => simp [Nat.repeat, Ascon.perm]
    change (List.range 4).flatMap (fun i => (Nat.repeat (Ascon.perm 12) i (hashReached (blocks 8 M))).take 8) =
      (List.range 4).flatMap (fun i => (Nat.repeat (Ascon.perm 12) i (hashReached (blocks 8 M'))).take 8) at h
    have key : ∀ (l : List Nat), l.flatMap (fun i => (Nat.repeat (Ascon.perm 12) i (hashReached (blocks 8 M))).take 8) =
        l.flatMap (fun i => (Nat.repeat (Ascon.perm 12) i (hashReached (blocks 8 M'))).take 8) →
        ∀ i ∈ l, (Nat.repeat (Ascon.perm 12) i (hashReached (blocks 8 M))).take 8 =
          (Nat.repeat (Ascon.perm 12) i (hashReached (blocks 8 M'))).take 8 := by
      intro l
      induction l with
      | nil => intro _ i hi; cases hi
      | cons j l ih =>
        intro he i hi
        rw [List.flatMap_cons, List.flatMap_cons] at he
        obtain ⟨h1, h2⟩ := List.append_inj he (by rw [hl, hl])
        rcases List.mem_cons.1 hi with rfl | hi
        · exact h1
        · exact ih h2 i hi
    intro i hi
    exact key _ h i (List.mem_range.2 hi)

/-- There are such messages. -/
example : ∃ M M' : List Byte, M ≠ M' ∧ AsconHash.hash M = AsconHash.hash M' := by
  obtain ⟨X, Y, _, _, hne, h⟩ := exists_collision 33 32 (by decide) AsconHash.hash
    (fun X _ => Target.length_hashSpec (.ref .a128a) X)
  exact ⟨X, Y, hne, h⟩

/-- **C42**, for the code: if two calls of `crypto_hash` store the same digest, then the inputs are equal or there is a collision. -/
theorem C42_hash_code (t t' : Target) (hc : t.conforming = true) (hc' : t'.conforming = true) (f f' : Ptr → Ptr → Nat → CM Int)
    (hf : t.hash = some f) (hf' : t'.hash = some f') (e e' : Env) (a a' : HashArgs) (hal : AlignedHash e a) (hal' : AlignedHash e' a')
    (V : ValidHash e a) (V' : ValidHash e' a') (s s1 s' s1' : St) (r r' : Int)
    (h : Runs (f a.out a.inp a.inlen) e s r s1) (h' : Runs (f' a'.out a'.inp a'.inlen) e' s' r' s1')
    (heq : bytesAt s1 a.out 32 = bytesAt s1' a'.out 32) :
    let M := bytesAt s a.inp a.inlen
    let M' := bytesAt s' a'.inp a'.inlen
    M = M' ∨ HashInnerCollision M M' ∨ HashOutputCollision M M' := by
  obtain ⟨s2, h2, he2⟩ := C25_ascon_hash_partial t hc f hf e a hal V s
  obtain ⟨s3, h3, he3⟩ := C25_ascon_hash_partial t' hc' f' hf' e' a' hal' V' s'
  obtain ⟨rfl, rfl⟩ := h.det h2
  obtain ⟨rfl, rfl⟩ := h'.det h3
  by_cases hne : bytesAt s a.inp a.inlen = bytesAt s' a'.inp a'.inlen
  · exact Or.inl hne
  · exact Or.inr (C42_same_digest _ _ hne (by rw [← he2, ← he3, heq]))

end Props
