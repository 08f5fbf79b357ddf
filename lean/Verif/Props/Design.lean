import Verif.Proof.Calls
import Verif.Proof.Perms
import Verif.Model.Hash
import Verif.Props.Sample
/-!
# Encoding of the authenticated input, separation of purposes, use of the key (C24, C31, C34)
-/

namespace Props
open C Model Spec

/-! ## C24 -/

/-- What ISAP_MAC absorbs after the nonce: the blocks of the associated data, then those of the ciphertext, each with a flag that
says whether the domain separation bit is added after it. -/
def absorbed (r : Nat) (A C : List Byte) : List (List Byte × Bool) :=
  (blocks r A).dropLast.map (·, false) ++ ((blocks r A).getLastD [], true) :: (blocks r C).map (·, false)

/-- One absorption. -/
def absorbStep (P : Params) (S : List Byte) (B : List Byte × Bool) : List Byte :=
  if B.2 then P.domSep (P.pH (xorFront S B.1)) else P.pH (xorFront S B.1)

/-- From the final state and the key to the tag. -/
def tagOf (P : Params) (K S : List Byte) : List Byte := (P.pH (P.rk K P.ivKA (S.take 16) 16 ++ S.drop 16)).take 16

theorem blocks_ne_nil {r : Nat} (hr : 0 < r) (X : List Byte) : blocks r X ≠ [] := by
  rw [blocks_eq hr]; simp

theorem foldl_absorbed (P : Params) (hr : 0 < P.r) (S A C : List Byte) :
    (absorbed P.r A C).foldl (absorbStep P) S = P.absorb (P.domSep (P.absorb S (blocks P.r A))) (blocks P.r C) := by
  have h : ∀ (Bs : List (List Byte)) (S : List Byte), (Bs.map (·, false)).foldl (absorbStep P) S = P.absorb S Bs := by
    intro Bs
    induction Bs with
    | nil => intro S; rfl
    | cons B Bs ih => intro S; exact ih _
  have hl : blocks P.r A = (blocks P.r A).dropLast ++ [(blocks P.r A).getLastD []] := by
    have := List.dropLast_concat_getLast (blocks_ne_nil hr A)
    rw [List.getLastD_eq_getLast?, List.getLast?_eq_some_getLast (blocks_ne_nil hr A)]
    exact this.symm
  rw [absorbed, List.foldl_append, h, List.foldl_cons, h]
  congr 1
  rw [absorbStep, if_pos rfl]
  congr 1
  conv => rhs; rw [hl, Params.absorb, List.foldl_append]
  rfl

/-- **C24**: the tag is a function of the key, the nonce and the sequence `absorbed`. -/
theorem C24_mac_of_absorbed (P : Params) (hr : 0 < P.r) (K N A C : List Byte) :
    P.mac K N A C = tagOf P K ((absorbed P.r A C).foldl (absorbStep P) (P.pH (P.initState N P.ivA))) := by
  rw [foldl_absorbed P hr]
  rfl

theorem flatten_chunks {r : Nat} (hr : 0 < r) (X : List Byte) : (chunks r X).flatten = X := by
  generalize hn : X.length = n
  induction n using Nat.strongRecOn generalizing X with
  | ind n ih =>
    by_cases hX : X = []
    · rw [hX, chunks_nil]; rfl
    · have : X.length ≠ 0 := fun h => hX (List.length_eq_zero_iff.1 h)
      rw [chunks_cons hr hX, List.flatten_cons, ih (X.drop r).length (by simp; omega) _ rfl, List.take_append_drop]

theorem zeros_succ (n : Nat) : zeros (n + 1) = 0 :: zeros n := rfl

theorem pad_inj_aux (X Y : List Byte) (a b : Nat) (h : X ++ [0x80] ++ zeros a = Y ++ [0x80] ++ zeros b) : X = Y := by
  have hr := congrArg (fun l => l.reverse.dropWhile (· == 0)) h
  have hd : ∀ (X : List Byte) (n : Nat), (X ++ [0x80] ++ zeros n).reverse.dropWhile (· == 0) = (0x80 : Byte) :: X.reverse := by
    intro X n
    rw [List.reverse_append, zeros, List.reverse_replicate, List.reverse_append]
    induction n with
    | zero => rfl
    | succ n ih => exact ih
  simp only [hd, List.cons.injEq, true_and] at hr
  exact List.reverse_inj.1 hr

/-- The padded blocks determine the string. -/
theorem blocks_inj {r : Nat} (hr : 0 < r) {X Y : List Byte} (h : blocks r X = blocks r Y) : X = Y := by
  have := congrArg List.flatten h
  rw [blocks, blocks, flatten_chunks hr, flatten_chunks hr] at this
  exact pad_inj_aux _ _ _ _ this

theorem split_inj {α : Type} {f f' b b' : List α} {x x' : α}
    (h : f.map (·, false) ++ (x, true) :: b.map (·, false) = f'.map (·, false) ++ (x', true) :: b'.map (·, false)) :
    f = f' ∧ x = x' ∧ b = b' := by
  induction f generalizing f' with
  | nil =>
    cases f' with
    | nil =>
      simp only [List.map_nil, List.nil_append, List.cons.injEq, Prod.mk.injEq, and_true] at h
      exact ⟨rfl, h.1, (List.map_inj_right fun _ _ h => (Prod.mk.inj h).1).1 h.2⟩
    | cons y f' => simp at h
  | cons y f ih =>
    cases f' with
    | nil => simp at h
    | cons y' f' =>
      simp only [List.map_cons, List.cons_append, List.cons.injEq, Prod.mk.injEq, and_true] at h
      obtain ⟨rfl, h⟩ := h
      obtain ⟨rfl, h2⟩ := ih h
      exact ⟨rfl, h2⟩

/-- **C24**: the absorbed sequence determines associated data and ciphertext. -/
theorem C24_injective (r : Nat) (hr : 0 < r) (A C A' C' : List Byte) (h : absorbed r A C = absorbed r A' C') :
    A = A' ∧ C = C' := by
  obtain ⟨h1, h2, h3⟩ := split_inj h
  refine ⟨blocks_inj hr ?_, blocks_inj hr h3⟩
  have := List.dropLast_concat_getLast (blocks_ne_nil hr A)
  have := List.dropLast_concat_getLast (blocks_ne_nil hr A')
  simp only [List.getLastD_eq_getLast?, List.getLast?_eq_some_getLast (blocks_ne_nil hr _), Option.getD_some] at h2
  simp_all

/-- **C24**: the initial state determines the nonce. -/
theorem C24_nonce (P : Params) (N N' : List Byte) (hN : N.length = 16) (hN' : N'.length = 16)
    (h : P.initState N P.ivA = P.initState N' P.ivA) : N = N' := by
  unfold Params.initState at h
  rw [List.append_assoc, List.append_assoc] at h
  exact (List.append_inj h (by rw [hN, hN'])).1

/-- **C24**, for the code: the tag that an implementation stores is a function of the key, the nonce and the absorbed sequence. -/
theorem C24_code (t : Target) (hc : t.conforming = true) (e : Env) (s s' : St) (a : EncArgs) (r : Int)
    (V : ValidEnc e a) (L : t.limits.Enc e a) (h : Runs (t.aead.encrypt a) e s r s') :
    bytesAt s' (a.c + a.mlen) 16 = tagOf t.set.spec (bytesAt s a.k 16)
      ((absorbed t.set.spec.r (bytesAt s a.ad a.adlen) (bytesAt s' a.c a.mlen)).foldl (absorbStep t.set.spec)
        (t.set.spec.pH (t.set.spec.initState (bytesAt s a.npub 16) t.set.spec.ivA))) := by
  have hb := enc_c V L h
  rw [bytesAt_add, Target.out, t.spec_eq hc, Params.encrypt] at hb
  obtain ⟨h1, h2⟩ := List.append_inj hb (by simp)
  rw [h2, h1, ← C24_mac_of_absorbed]
  rw [← t.spec_eq hc]
  exact t.wf.r_pos

/-- Moving a byte from the associated data to the ciphertext, or a full block, changes the sequence. -/
example : absorbed 8 [1] [2] ≠ absorbed 8 [1, 2] [] ∧
    absorbed 8 [1, 2, 3, 4, 5, 6, 7, 8] [] ≠ absorbed 8 [] [1, 2, 3, 4, 5, 6, 7, 8] :=
  ⟨fun h => absurd (C24_injective 8 (by decide) _ _ _ _ h).1 (by decide),
   fun h => absurd (C24_injective 8 (by decide) _ _ _ _ h).1 (by decide)⟩

/-! ## C31 -/

/-- The constant tables in the code: `ISAP_IV_A`, `ISAP_IV_KA`, `ISAP_IV_KE` (or `ISAP_IV1`, ...) for `i` = 1, 2, 3. -/
def ivTable : Target → Nat → List Byte
  | .ref P | .x P => P.cfg.iv
  | .a128Opt64 _ | .a128Opt32 | .a128Opt32Armv67m => A128.iv
  | .a128aAvx512 d => (A128.Avx.cfg d).iv
  | .k128aOpt64 => K128.Opt64.primsK128a.iv
  | .k128Opt64 => K128.Opt64.primsK128.iv
  | .k128aAvx512 j => (K128.Avx.prims j).iv
  | .k128aOpt32Armv6m => K128.Arm.primsK128aV6.iv
  | .k128aOpt32Armv7m => K128.Arm.primsK128aV7.iv
  | .k128Opt32Armv6m => K128.Arm.primsK128V6.iv
  | .k128Opt32Armv7m => K128.Arm.primsK128V7.iv
  | _ => Opt.iv

/-- **C31**: the tables contain the initial values of the specification. -/
theorem C31_tables (t : Target) (i : Nat) : ivTable t i = t.set.spec.iv i := by
  cases t with
  | ref P => cases P <;> rfl
  | x P => cases P <;> rfl
  | _ => rfl

/-- **C31**, for the code: each implementation starts the authentication from the initial state for purpose 1 and the nonce, derives
the key of the tag with purpose 2 and the key of the encryption with purpose 3.  (`rk K iv Y z` starts from the initial state of
`K` and `iv`, see `C31_rk_start`; `t.spec` is the parameter set of the implementation, `t.set.spec`, except that for bi_32_armv7m it
has the permutations this code computes.) -/
theorem C31_encrypt_code (t : Target) (e : Env) (s s' : St) (a : EncArgs) (r : Int)
    (V : ValidEnc e a) (L : t.limits.Enc e a) (h : Runs (t.aead.encrypt a) e s r s') :
    let P := t.spec
    let K := bytesAt s a.k 16
    let N := bytesAt s a.npub 16
    let C := bytesAt s' a.c a.mlen
    let SA := P.absorb (P.domSep (P.absorb (P.pH (P.initState N (t.set.spec.iv 1))) (blocks P.r (bytesAt s a.ad a.adlen)))) (blocks P.r C)
    bytesAt s' (a.c + a.mlen) 16 = (P.pH (P.rk K (t.set.spec.iv 2) (SA.take 16) 16 ++ SA.drop 16)).take 16 ∧
    C = (bytesAt s a.m a.mlen).mapIdx fun i b =>
      b ^^^ (Nat.repeat P.pE (i / P.r + 1) (P.rk K (t.set.spec.iv 3) N (P.n - 16) ++ N)).getD (i % P.r) 0 := by
  have hiv : ∀ i, t.set.spec.iv i = t.spec.iv i := by
    intro i
    by_cases hc : t.conforming = true
    · rw [t.spec_eq hc]
    · cases t <;> first | exact absurd rfl hc | simp only [Params.iv, Target.spec, Target.set, ParamSet.spec, Opt.PQ, isapA128a]
  have hb := enc_c V L h
  rw [bytesAt_add, Target.out, Params.encrypt] at hb
  obtain ⟨h1, h2⟩ := List.append_inj hb (by simp)
  simp only [hiv]
  refine ⟨?_, h1⟩
  rw [h2, h1]
  rfl

/-- **C31**: the re-keying starts from the initial state. -/
theorem C31_rk_start (P : Params) (z : Nat) : ∃ G : List Byte → List Byte → List Byte,
    ∀ K iv Y, P.rk K iv Y z = G Y (P.pK (P.initState K iv)) :=
  ⟨fun Y S => (P.pK (xorFront ((bits Y).dropLast.foldl (fun S b => P.pB (xorFront S [Params.bitByte b])) S)
    [Params.bitByte ((bits Y).getLastD false)])).take z, fun _ _ _ => rfl⟩

theorem iv_inj (p p' : ParamSet) (i j : Nat) (hi : i < 256) (hj : j < 256) (h : p.spec.iv i = p'.spec.iv j) : p = p' ∧ i = j := by
  have hij : i = j := by
    have := (List.cons.inj h).1
    have := congrArg BitVec.toNat this
    simpa [Nat.mod_eq_of_lt hi, Nat.mod_eq_of_lt hj] using this
  refine ⟨?_, hij⟩
  have := (List.cons.inj h).2
  cases p <;> cases p' <;> first | rfl | exact absurd this (by decide)

/-- **C31**: the initial states for authentication (1), for deriving the MAC key (2) and for deriving the encryption key (3) are
different for different purposes and for different parameter sets, for all nonces and keys. -/
theorem C31_initial_states (p p' : ParamSet) (i j : Nat) (hi : i = 1 ∨ i = 2 ∨ i = 3) (hj : j = 1 ∨ j = 2 ∨ j = 3)
    (X X' : List Byte) (hX : X.length = 16) (hX' : X'.length = 16)
    (h : p.spec.initState X (p.spec.iv i) = p'.spec.initState X' (p'.spec.iv j)) : p = p' ∧ i = j ∧ X = X' := by
  unfold Params.initState at h
  rw [List.append_assoc, List.append_assoc] at h
  obtain ⟨h1, h2⟩ := List.append_inj h (by rw [hX, hX'])
  obtain ⟨h3, h4⟩ := iv_inj p p' i j (by omega) (by omega) (List.append_inj h2 rfl).1
  exact ⟨h3, h4, h1⟩

/-- **C31**: none of them is the initial state of Ascon-Hash. -/
theorem C31_hash (p : ParamSet) (i : Nat) (hi : i = 1 ∨ i = 2 ∨ i = 3) (X : List Byte) (hX : X.length = 16) :
    p.spec.initState X (p.spec.iv i) ≠ Spec.AsconHash.iv ++ zeros 32 := by
  intro h
  have := congrArg (fun l => (l.drop 16).take 1) h
  have e : ((p.spec.initState X (p.spec.iv i)).drop 16).take 1 = [BitVec.ofNat 8 i] := by
    unfold Params.initState
    rw [List.append_assoc, List.drop_append_of_le_length (by omega), List.drop_of_length_le (by omega)]
    rfl
  rw [e] at this
  rcases hi with rfl | rfl | rfl <;> exact absurd this (by decide)

/-- The number of rounds of the permutation applied to the initial state for purpose `i`. -/
def initRounds (P : Params) (i : Nat) : Nat := if i = 1 then P.sH else P.sK

theorem initState_length (p : ParamSet) (i : Nat) (X : List Byte) (hX : X.length = 16) :
    (p.spec.initState X (p.spec.iv i)).length = p.spec.n := by
  cases p <;> simp [Params.initState, hX, zeros, ParamSet.spec, Params.iv, isapA128a, isapA128, isapK128a, isapK128]

/-- **C31**: they stay different after the initial permutation (of the same kind and the same number of rounds). -/
theorem C31_after_permutation (p p' : ParamSet) (i j : Nat) (hi : i = 1 ∨ i = 2 ∨ i = 3) (hj : j = 1 ∨ j = 2 ∨ j = 3)
    (hn : p.spec.n = p'.spec.n) (hr : initRounds p.spec i = initRounds p'.spec j)
    (X X' : List Byte) (hX : X.length = 16) (hX' : X'.length = 16)
    (h : p.spec.perm (initRounds p.spec i) (p.spec.initState X (p.spec.iv i)) =
      p'.spec.perm (initRounds p'.spec j) (p'.spec.initState X' (p'.spec.iv j))) : p = p' ∧ i = j ∧ X = X' := by
  refine C31_initial_states p p' i j hi hj X X' hX hX' ?_
  rw [hr] at h
  have h1 := initState_length p i X hX
  have h2 := initState_length p' j X' hX'
  have hb : ∀ n, BijOn p.spec.n (p.spec.perm n) := by
    intro n
    cases p
    · exact bijOn_ascon (Ascon.p_bijective n)
    · exact bijOn_ascon (Ascon.p_bijective n)
    · exact Keccak.bijOn (Keccak.p_bijective n)
    · exact Keccak.bijOn (Keccak.p_bijective n)
  have hp : p'.spec.perm = p.spec.perm := by
    cases p <;> cases p' <;> first | rfl | exact absurd hn (by decide)
  rw [hp] at h
  exact (hb _).inj _ _ h1 (by rw [h2, hn]) h

/-- **C31**: the initial permutations of all purposes of ISAP-A-128a and ISAP-A-128 have the same number of rounds; so have those
for deriving the two keys in each parameter set. -/
theorem C31_same_rounds : (∀ p p' : ParamSet, p.spec.n = 40 → p'.spec.n = 40 → ∀ i j, initRounds p.spec i = initRounds p'.spec j) ∧
    ∀ p : ParamSet, initRounds p.spec 2 = initRounds p.spec 3 := by
  constructor
  · intro p p' h h' i j
    have e : ∀ p : ParamSet, p.spec.n = 40 → ∀ i, initRounds p.spec i = 12 := by
      intro p hp i
      cases p <;> first | exact absurd hp (by decide) | (simp [initRounds, ParamSet.spec, isapA128a, isapA128])
    rw [e p h, e p' h']
  · intro p; cases p <;> rfl

/-- **C31**: the hash does not reach a state of the other purposes by its initial permutation (12 rounds) either. -/
theorem C31_hash_after_permutation (p : ParamSet) (hp : p = .a128a ∨ p = .a128) (i : Nat) (hi : i = 1 ∨ i = 2 ∨ i = 3)
    (X : List Byte) (hX : X.length = 16) :
    p.spec.perm (initRounds p.spec i) (p.spec.initState X (p.spec.iv i)) ≠ Ascon.perm 12 (Spec.AsconHash.iv ++ zeros 32) := by
  intro h
  have h1 := initState_length p i X hX
  refine C31_hash p i hi X hX ?_
  have hr : initRounds p.spec i = 12 := by
    rcases hp with rfl | rfl <;> simp [initRounds, ParamSet.spec, isapA128a, isapA128]
  have hn : p.spec.n = 40 := by rcases hp with rfl | rfl <;> rfl
  have hpp : p.spec.perm = Ascon.perm := by rcases hp with rfl | rfl <;> rfl
  rw [hr, hpp] at h
  exact (bijOn_ascon (Ascon.p_bijective 12)).inj _ _ (by rw [h1, hn]) (by decide) h

/-! ## C34 -/

/-- **C34**: the output of an encryption depends on the key only through the session keys: the one for the encryption, derived from
the nonce, and the one for the tag, derived from 16 bytes that do not depend on the key in any other way.  (`t.spec` is the
parameter set of the implementation, `t.set.spec`, except that for bi_32_armv7m it has the permutations this code computes.) -/
theorem C34_encrypt_via_rk (t : Target) :
    ∃ G : (KE : List Byte) → (KA : List Byte → List Byte) → (N A M : List Byte) → List Byte,
    ∀ (e : Env) (s s' : St) (a : EncArgs) (r : Int), ValidEnc e a → t.limits.Enc e a → Runs (t.aead.encrypt a) e s r s' →
      let P := t.spec
      let K := bytesAt s a.k 16
      bytesAt s' a.c (a.mlen + 16) =
        G (P.rk K (P.iv 3) (bytesAt s a.npub 16) (P.n - 16)) (fun Y => P.rk K (P.iv 2) Y 16)
          (bytesAt s a.npub 16) (bytesAt s a.ad a.adlen) (bytesAt s a.m a.mlen) := by
  let P := t.spec
  let ENC (KE N M : List Byte) : List Byte := M.mapIdx fun i b => b ^^^ (Nat.repeat P.pE (i / P.r + 1) (KE ++ N)).getD (i % P.r) 0
  let ABS (N A X : List Byte) : List Byte := P.absorb (P.domSep (P.absorb (P.pH (P.initState N P.ivA)) (blocks P.r A))) (blocks P.r X)
  refine ⟨fun KE KA N A M => ENC KE N M ++ (P.pH (KA ((ABS N A (ENC KE N M)).take 16) ++ (ABS N A (ENC KE N M)).drop 16)).take 16, ?_⟩
  intro e s s' a r V L h
  rw [enc_c V L h]
  rfl

open Classical in
/-- **C34**: so does the decision of a decryption and the plaintext it returns. -/
theorem C34_decrypt_via_rk (t : Target) :
    ∃ G : (KE : List Byte) → (KA : List Byte → List Byte) → (N A X T : List Byte) → Option (List Byte),
    ∀ (e : Env) (s s' : St) (d : DecArgs) (r : Int), ValidDec e d → t.limits.Dec e d → Runs (t.aead.decrypt d) e s r s' →
      let P := t.spec
      let K := bytesAt s d.k 16
      (if r = 0 then some (bytesAt s' d.m (d.clen - 16)) else none) =
        G (P.rk K (P.iv 3) (bytesAt s d.npub 16) (P.n - 16)) (fun Y => P.rk K (P.iv 2) Y 16)
          (bytesAt s d.npub 16) (bytesAt s d.ad d.adlen) (bytesAt s d.c (d.clen - 16)) (bytesAt s (d.c + (d.clen - 16)) 16) := by
  let P := t.spec
  let ENC (KE N M : List Byte) : List Byte := M.mapIdx fun i b => b ^^^ (Nat.repeat P.pE (i / P.r + 1) (KE ++ N)).getD (i % P.r) 0
  let ABS (N A X : List Byte) : List Byte := P.absorb (P.domSep (P.absorb (P.pH (P.initState N P.ivA)) (blocks P.r A))) (blocks P.r X)
  let TAG (KA : List Byte → List Byte) (N A X : List Byte) : List Byte :=
    (P.pH (KA ((ABS N A X).take 16) ++ (ABS N A X).drop 16)).take 16
  let ACC (KA : List Byte → List Byte) (N A X T : List Byte) : Prop :=
    if t.stp = true then Stp.image P (ABS N A X) T = Stp.image P (ABS N A X) (TAG KA N A X) else T = TAG KA N A X
  refine ⟨fun KE KA N A X T => if ACC KA N A X T then some (ENC KE N X) else none, ?_⟩
  intro e s s' d r V L h
  rcases dec_run V L h with ⟨h1, rfl, hm⟩ | ⟨h1, rfl, hm⟩
  · rw [if_pos rfl, (dec_m V hm).1]
    exact (if_pos h1).symm
  · rw [if_neg (by decide)]
    exact (if_neg h1).symm

/-- The state of the re-keying function after the bits `bs`. -/
def rkState (P : Params) (K iv : List Byte) (bs : List Bool) : List Byte :=
  bs.foldl (fun S b => P.pB (xorFront S [Params.bitByte b])) (P.pK (P.initState K iv))

/-- **C34**: the derived key is a function of the state after 127 bits and the last bit ... -/
theorem C34_rk_last (P : Params) (K iv Y : List Byte) (z : Nat) (hY : Y.length = 16) :
    P.rk K iv Y z = (P.pK (xorFront (rkState P K iv ((bits Y).take 127)) [Params.bitByte ((bits Y).getD 127 false)])).take z := by
  have hl : (bits Y).length = 128 := by
    simp only [bits, List.length_flatMap, bitsOfByte, List.length_map, List.length_range, List.map_const', List.sum_replicate_nat, hY]
  have h1 : (bits Y).dropLast = (bits Y).take 127 := by rw [List.dropLast_eq_take, hl]
  have h2 : (bits Y).getLastD false = (bits Y).getD 127 false := by
    rw [List.getLastD_eq_getLast?, List.getLast?_eq_getElem?, hl, List.getD]
  unfold Params.rk
  simp only [h1, h2]
  rfl

/-- **C34**: ... inputs with the same first `i` bits have the same state after `i` bits ... -/
theorem C34_shared_prefix (P : Params) (K iv Y Y' : List Byte) (i : Nat) (h : (bits Y).take i = (bits Y').take i) :
    ∀ j, j ≤ i → rkState P K iv ((bits Y).take j) = rkState P K iv ((bits Y').take j) := by
  intro j hj
  rw [← Nat.min_eq_left hj, ← List.take_take, h, List.take_take]

/-- **C34**: ... and whatever the input and the position, a state has at most two successors. -/
theorem C34_two_successors (P : Params) (K iv S : List Byte) : ∃ T0 T1 : List Byte, ∀ (Y : List Byte) (i : Nat),
    Y.length = 16 → i < 127 → rkState P K iv ((bits Y).take i) = S →
    rkState P K iv ((bits Y).take (i + 1)) = T0 ∨ rkState P K iv ((bits Y).take (i + 1)) = T1 := by
  refine ⟨P.pB (xorFront S [Params.bitByte false]), P.pB (xorFront S [Params.bitByte true]), fun Y i hY hi h => ?_⟩
  have hl : (bits Y).length = 128 := by
    simp only [bits, List.length_flatMap, bitsOfByte, List.length_map, List.length_range, List.map_const', List.sum_replicate_nat, hY]
  rw [List.take_succ_eq_append_getElem (by omega), rkState, List.foldl_append, ← rkState, h]
  cases (bits Y)[i]'(by omega)
  · exact Or.inl rfl
  · exact Or.inr rfl

/-- The sample call meets the hypotheses, for every implementation. -/
example (t : Target) : ValidEnc Sample.env Sample.enc ∧ t.limits.Enc Sample.env Sample.enc ∧
    ValidDec Sample.env Sample.dec ∧ t.limits.Dec Sample.env Sample.dec :=
  ⟨Sample.validEnc, Sample.limitsEnc t, Sample.validDec, Sample.limitsDec t⟩

end Props
