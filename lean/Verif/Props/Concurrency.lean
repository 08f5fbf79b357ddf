import Verif.Proof.Threads
import Verif.Proof.StpRace
import Verif.Props.Sample
/-!
# C16: concurrent calls
-/

namespace Props
open C Model Spec

/-- A call of an implementation. -/
inductive Call where
  | enc (t : Target) (a : EncArgs)
  | dec (t : Target) (d : DecArgs)

/-- The implementation called. -/
def Call.target : Call → Target
  | .enc t _ => t
  | .dec t _ => t

/-- The code that runs. -/
def Call.prog : Call → CM Int
  | .enc t a => t.aead.encrypt a
  | .dec t d => t.aead.decrypt d

/-- The call is valid. -/
def Call.Valid (e : Env) : Call → Prop
  | .enc t a => ValidEnc e a ∧ t.limits.Enc e a
  | .dec t d => ValidDec e d ∧ t.limits.Dec e d

theorem Call.noGlob (x : Call) (h : x.target.stp = false) : NoGlob x.prog := by
  cases x with
  | enc t a => exact t.noGlob_encrypt h a
  | dec t d => exact t.noGlob_decrypt h d

/-- Alone, a valid call returns. -/
theorem Call.runs {x : Call} {e : Env} (h : x.Valid e) (s : St) : ∃ r s', Runs x.prog e s r s' := by
  cases x with
  | enc t a =>
    obtain ⟨s', h, _⟩ := t.encryptOK e s a h.1 h.2
    exact ⟨0, s', h⟩
  | dec t d => exact dec_exists h.1 h.2 s

/-- **C16** (all implementations except stp) Two threads make valid calls, and neither may write what the other uses.  Alone,
each call returns something.  Under every schedule: no thread runs into undefined behaviour; a thread that has returned has
returned what it returns alone and has left in the memory it uses what it leaves there alone; memory that neither call may
write is unchanged; and a thread that has had enough turns has returned. -/
theorem C16_concurrent_partial (x y : Call) (hx : x.target.stp = false) (hy : y.target.stp = false) (e1 e2 : Env)
    (hS : Separate e1 e2) (vx : x.Valid e1) (vy : y.Valid e2) (s : St) :
    ∃ a s1 b s2 n1 n2, Runs x.prog e1 s a s1 ∧ Runs y.prog e2 s b s2 ∧ ∀ l : List Bool,
      let T := interleave e1 e2 l ⟨x.prog, y.prog, s⟩
      (∀ u, T.t1 ≠ .ub u ∧ T.t2 ≠ .ub u) ∧
      (∀ r, T.t1 = .ret r → r = a ∧ ∀ blk o, e1.rd blk o = true → T.s.mem blk o = s1.mem blk o) ∧
      (∀ r, T.t2 = .ret r → r = b ∧ ∀ blk o, e2.rd blk o = true → T.s.mem blk o = s2.mem blk o) ∧
      (∀ blk o, e1.wr blk o = false → e2.wr blk o = false → T.s.mem blk o = s.mem blk o) ∧
      (n1 ≤ l.count true → T.t1 = .ret a) ∧ (n2 ≤ l.count false → T.t2 = .ret b) := by
  obtain ⟨a, s1, tr1, h1⟩ := Call.runs vx s
  obtain ⟨b, s2, tr2, h2⟩ := Call.runs vy s
  have A1 : Ahead e1 a s1 tr1.length x.prog s := ⟨x.noGlob hx, s, tr1, h1, fun _ _ _ => rfl, rfl⟩
  have A2 : Ahead e2 b s2 tr2.length y.prog s := ⟨y.noGlob hy, s, tr2, h2, fun _ _ _ => rfl, rfl⟩
  refine ⟨a, s1, b, s2, tr1.length, tr2.length, ⟨tr1, h1⟩, ⟨tr2, h2⟩, fun l => ?_⟩
  obtain ⟨B1, B2⟩ := interleave_ahead hS l (T := ⟨x.prog, y.prog, s⟩) A1 A2
  refine ⟨fun u => ⟨B1.not_ub u, B2.not_ub u⟩, ?_, ?_, fun blk o w1 w2 => interleave_frame l _ blk o w1 w2, ?_, ?_⟩
  · intro r hr
    rw [hr] at B1
    exact ⟨B1.ret.1, fun blk o ho => (B1.ret.2 blk o ho).symm⟩
  · intro r hr
    rw [hr] at B2
    exact ⟨B2.ret.1, fun blk o ho => (B2.ret.2 blk o ho).symm⟩
  · intro h
    rw [Nat.sub_eq_zero_of_le h] at B1; exact B1.done.1
  · intro h
    rw [Nat.sub_eq_zero_of_le h] at B2; exact B2.done.1

/-- The second thread uses objects 10 and above of its own, and shares the key, nonce and associated data. -/
def otherEnv : Env where
  rd b o := decide (o < Sample.size b) && (b == 3 || b == 4 || b == 5) || decide (10 ≤ b ∧ b < 15 ∧ o < 40)
  wr b o := decide (10 ≤ b ∧ b < 13 ∧ o < 40)
  base _ := 0
  strict := false

def otherDec : DecArgs := { Sample.dec with m := ⟨10, 0⟩, mlen := ⟨11, 0⟩, c := ⟨13, 0⟩, clen := 25 }

theorem separate : Separate Sample.env otherEnv := by
  constructor
  · intro b o h
    simp only [Sample.env, otherEnv, Bool.and_eq_true, Bool.or_eq_true, decide_eq_true_eq, beq_iff_eq] at h ⊢
    simp only [Bool.or_eq_false_iff, Bool.and_eq_false_iff, decide_eq_false_iff_not]
    rcases h.2 with ((rfl | rfl) | rfl) | rfl <;> simp
  · intro b o h
    simp only [Sample.env, otherEnv, decide_eq_true_eq] at h ⊢
    obtain ⟨h1, h2, h3⟩ := h
    have : Sample.size b = 0 := by
      match b, h1, h2 with
      | 10, _, _ => rfl
      | 11, _, _ => rfl
      | 12, _, _ => rfl
    rw [this]
    simp

theorem otherDec_valid : ValidDec otherEnv otherDec := by
  have rd : ∀ b n, b = 3 ∨ b = 4 ∨ b = 5 → n ≤ Sample.size b → Readable otherEnv ⟨b, 0⟩ n := by
    intro b n hb hn i hi
    have : (0 + i < Sample.size b) := by omega
    simp only [otherEnv, Bool.or_eq_true, Bool.and_eq_true, decide_eq_true_eq, beq_iff_eq]
    exact .inl ⟨this, by omega⟩
  have rd' : ∀ b n, 10 ≤ b → b < 15 → n ≤ 40 → Readable otherEnv ⟨b, 0⟩ n := by
    intro b n hb hb' hn i hi
    simp only [otherEnv, Bool.or_eq_true, decide_eq_true_eq]
    exact .inr ⟨hb, hb', by omega⟩
  have wr' : ∀ b n, 10 ≤ b → b < 13 → n ≤ 40 → Writable otherEnv ⟨b, 0⟩ n := by
    intro b n hb hb' hn i hi
    refine ⟨rd' b n hb (by omega) hn i hi, ?_⟩
    simp only [otherEnv, decide_eq_true_eq]
    exact ⟨hb, hb', by omega⟩
  exact {
    k := rd 5 16 (by decide) (by decide), npub := rd 4 16 (by decide) (by decide), ad := rd 3 20 (by decide) (by decide),
    c := rd' 13 25 (by decide) (by decide) (by decide), mlen := wr' 11 8 (by decide) (by decide) (by decide),
    adlen_lt := by decide, clen_lt := by decide, clen_ge := by decide, mlen_c := by decide, mlen_ad := by decide,
    mlen_npub := by decide, mlen_k := by decide, m := wr' 10 9 (by decide) (by decide) (by decide), m_c := by decide,
    mlen_m := by decide }

theorem otherLimits (t : Target) : t.limits.Dec otherEnv otherDec :=
  Limits.dec_tolerant rfl (Sample.limits t).1 (Nat.lt_trans (by decide) (Sample.limits t).1) fun i hi => by
    have := (Sample.limits t).2
    have hi : i < t.limits.ext 20 := hi
    have : 0 + i < 26 := by omega
    simp only [otherEnv, Bool.or_eq_true, Bool.and_eq_true, decide_eq_true_eq]
    exact .inl ⟨this, by decide⟩

/-- Non-vacuity: an encryption and a decryption that share key, nonce and associated data. -/
example (t : Target) : Separate Sample.env otherEnv ∧ (Call.enc t Sample.enc).Valid Sample.env ∧
    (Call.dec t otherDec).Valid otherEnv :=
  ⟨separate, ⟨Sample.validEnc, Sample.limitsEnc t⟩, ⟨otherDec_valid, otherLimits t⟩⟩

/-! ## The stp variants -/

/-- Memory with an honest ciphertext (a tag) of the empty message under the all-zero key and nonce in object 0, and a second
nonce in object 14. -/
def raceSt : St where
  mem b o := if b = 0 then (isapA128a.mac (zeros 16) (zeros 16) [] []).getD o 0 else if b = 14 then 0x01 else 0x00
  s0 := 0
  s1 := 0

/-- The first thread decrypts it. -/
def raceDec1 : DecArgs := { Sample.dec with clen := 16, adlen := 0 }
/-- The second thread decrypts something else (16 zero bytes) under the other nonce. -/
def raceDec2 : DecArgs := { otherDec with clen := 16, adlen := 0, npub := ⟨14, 0⟩ }

theorem raceDec1_valid : ValidDec Sample.env raceDec1 := by
  have V' := Sample.validDec
  exact {
      k := V'.k, npub := V'.npub, ad := fun i hi => absurd hi (Nat.not_lt_zero i)
      c := V'.c.mono (by decide), mlen := V'.mlen, adlen_lt := by decide, clen_lt := by decide, clen_ge := by decide
      mlen_c := by decide, mlen_ad := by decide, mlen_npub := by decide, mlen_k := by decide
      m := fun i hi => absurd hi (Nat.not_lt_zero i), m_c := by decide, mlen_m := by decide }

theorem raceDec2_valid : ValidDec otherEnv raceDec2 := by
  have V' := otherDec_valid
  exact {
      k := V'.k, npub := fun i hi => by
        simp only [otherEnv, Bool.or_eq_true, decide_eq_true_eq]
        exact .inr ⟨by decide, by decide, show 0 + i < 40 by omega⟩
      ad := fun i hi => absurd hi (Nat.not_lt_zero i)
      c := V'.c.mono (by decide), mlen := V'.mlen, adlen_lt := by decide, clen_lt := by decide, clen_ge := by decide
      mlen_c := by decide, mlen_ad := by decide, mlen_npub := by decide, mlen_k := by decide
      m := fun i hi => absurd hi (Nat.not_lt_zero i), m_c := by decide, mlen_m := by decide }

theorem raceSt_bytes (b n : Nat) (x : Byte) (h : ∀ o, raceSt.mem b o = x) : bytesAt raceSt ⟨b, 0⟩ n = List.replicate n x := by
  apply List.ext_getElem
  · simp
  · intro i h1 h2
    simp [bytesAt, h]

theorem raceSt_tag : bytesAt raceSt ⟨0, 0⟩ 16 = isapA128a.mac (zeros 16) (zeros 16) [] [] := by
  have hl : (isapA128a.mac (zeros 16) (zeros 16) [] []).length = 16 :=
    Params.length_mac (Opt.isAscon (q := Spec.Ascon.p)).wf _ _ (by simp [zeros]) (by simp [zeros])
  generalize hT : isapA128a.mac (zeros 16) (zeros 16) [] [] = T at hl
  have hm : ∀ o, raceSt.mem 0 o = T.getD o 0 := by intro o; rw [← hT]; rfl
  apply List.ext_getElem
  · simp [hl]
  · intro i h1 h2
    simp [bytesAt, hm, List.getD, h2]

/-- The race, for one set of primitives. -/
theorem stp_race {D : Opt.StpPrims} {φ : BitVec 64 → BitVec 64} (O : Opt.StpOK D φ Spec.Ascon.p) :
    ∃ l g s, interleave Sample.env otherEnv l ⟨(Opt.Stp.aead D).decrypt raceDec1, (Opt.Stp.aead D).decrypt raceDec2, raceSt⟩ =
      ⟨.ret (-1), g, s⟩ := by
  have hk : bytesAt raceSt raceDec1.k 16 = zeros 16 := raceSt_bytes 5 16 0 fun _ => rfl
  have hn : bytesAt raceSt raceDec1.npub 16 = zeros 16 := raceSt_bytes 4 16 0 fun _ => rfl
  have hP : Opt.PQ Spec.Ascon.p = isapA128a := rfl
  have hne := Opt.Stp.race_ne
  rw [hP] at hne
  have hT' := raceSt_tag
  have hl : (isapA128a.mac (zeros 16) (zeros 16) [] []).length = 16 := by rw [← raceSt_tag]; simp
  have hT : isapA128a.mac (zeros 16) (zeros 16) [] [] =
      isapA128a.mac (bytesAt raceSt raceDec1.k 16) (bytesAt raceSt raceDec1.npub 16) (bytesAt raceSt raceDec1.ad raceDec1.adlen) [] := by
    rw [hk, hn]; rfl
  have hS : Spec.macSt Spec.Ascon.p isapA128a (zeros 16) [] [] =
      Spec.macSt Spec.Ascon.p isapA128a (bytesAt raceSt raceDec1.npub 16) (bytesAt raceSt raceDec1.ad raceDec1.adlen) [] := by
    rw [hn]; rfl
  generalize isapA128a.mac (zeros 16) (zeros 16) [] [] = T at hT hT' hne hl
  generalize Spec.macSt Spec.Ascon.p isapA128a (zeros 16) [] [] = S at hS hne
  obtain ⟨s1, m1, g0, g1, r1⟩ := Opt.Stp.reach_middle O (s := raceSt) raceDec1_valid.toValidDecIn
    (Limits.dec_tolerant rfl (by decide) (by decide) fun i hi => absurd hi (Nat.not_lt_zero i)) rfl
    hS hT hT'.symm
  obtain ⟨mid, r2, hmid⟩ := Opt.Stp.reach_race (e := Sample.env) O hl g0 g1 hne
    (do let l ← loadLen raceDec1.mlen
        ifThen (l > 0) do
          let l ← loadLen raceDec1.mlen
          Opt.isapEnc D.toPrims raceDec1.k raceDec1.npub raceDec1.c l raceDec1.m
        pure 0)
  have fr : ∀ (b : Nat), b ≠ 8 → ∀ o, s1.mem b o = raceSt.mem b o := by
    intro b hb o
    rw [m1]
    exact putBytes_frame (n := 8) (by simp) (fun h => hb h.1)
  have hn2 : bytesAt s1 raceDec2.npub 16 = Opt.Stp.onesN := by
    refine Eq.trans ?_ (raceSt_bytes 14 16 1 fun _ => rfl)
    exact List.map_congr_left fun i _ => fr 14 (by decide) _
  obtain ⟨s2, m2, g0', g1', r3⟩ := Opt.Stp.reach_middle O (s := s1) raceDec2_valid.toValidDecIn
    (Limits.dec_tolerant rfl (by decide) (by decide) fun i hi => absurd hi (Nat.not_lt_zero i)) rfl
    (S := Spec.macSt Spec.Ascon.p isapA128a Opt.Stp.onesN [] []) (by rw [hn2]; rfl) rfl rfl
  obtain ⟨l, hl⟩ := interleave_three (r1.trans r2) r3 (hmid s2 g0' g1')
  exact ⟨l, _, _, hl⟩

/-- **C16** is false of the stp variants, which is why `C16_concurrent_partial` leaves them out: they pass data from `isap_mac` to the tag comparison in global variables.  Two
concurrent decryptions on separate memory; the first one, of an honest ciphertext, returns 0 alone but -1 under some
schedule. -/
theorem C16_false_stp (t : Target) (ht : t.stp = true) : ∃ (e1 e2 : Env) (s s1 : St) (d1 d2 : DecArgs) (l : List Bool),
    Separate e1 e2 ∧ ValidDec e1 d1 ∧ ValidDec e2 d2 ∧ Runs (t.aead.decrypt d1) e1 s 0 s1 ∧
    (interleave e1 e2 l ⟨t.aead.decrypt d1, t.aead.decrypt d2, s⟩).t1 = .ret (-1) := by
  have hL : t.limits.Dec Sample.env raceDec1 := by
    cases t
    case a128aOpt32Stp => exact Limits.dec_tolerant rfl (by decide) (by decide) fun i hi => absurd hi (Nat.not_lt_zero i)
    case a128aBi32Stp => exact Limits.dec_tolerant rfl (by decide) (by decide) fun i hi => absurd hi (Nat.not_lt_zero i)
    case a128aBi32Armv6mStp => exact Limits.dec_tolerant rfl (by decide) (by decide) fun i hi => absurd hi (Nat.not_lt_zero i)
    all_goals exact nomatch ht
  have hacc : t.accepts raceSt raceDec1 := by
    have hspec : t.spec = isapA128a := by 
      cases t
      case a128aOpt32Stp => rfl
      case a128aBi32Stp => rfl
      case a128aBi32Armv6mStp => rfl
      all_goals exact nomatch ht
    have hk : bytesAt raceSt raceDec1.k 16 = zeros 16 := raceSt_bytes 5 16 0 fun _ => rfl
    have hn : bytesAt raceSt raceDec1.npub 16 = zeros 16 := raceSt_bytes 4 16 0 fun _ => rfl
    have hc : bytesAt raceSt (raceDec1.c + (raceDec1.clen - 16)) 16 = isapA128a.mac (zeros 16) (zeros 16) [] [] := raceSt_tag
    rw [Target.accepts, Target.acc, if_pos ht, hspec, hk, hn, hc]
    rfl
  obtain ⟨s1, h1⟩ : ∃ s1, Runs (t.aead.decrypt raceDec1) Sample.env raceSt 0 s1 := by
    obtain ⟨s1, h1, _⟩ := dec_accept raceDec1_valid hL hacc
    exact ⟨s1, h1⟩
  have : ∃ l g s, interleave Sample.env otherEnv l ⟨t.aead.decrypt raceDec1, t.aead.decrypt raceDec2, raceSt⟩ =
      ⟨.ret (-1), g, s⟩ := by
    cases t
    case a128aOpt32Stp => exact stp_race Opt.Opt32.stpOK
    case a128aBi32Stp => exact stp_race Opt.Bi32.stpOK
    case a128aBi32Armv6mStp => exact stp_race Opt.Armv6m.stpOK
    all_goals exact nomatch ht
  obtain ⟨l, g, s', hl⟩ := this
  exact ⟨Sample.env, otherEnv, raceSt, s1, raceDec1, raceDec2, l, separate, raceDec1_valid, raceDec2_valid, h1, by rw [hl]⟩

example : Target.a128aBi32Stp.stp = true := rfl

end Props
