import Verif.Proof.Calls
import Verif.Model.Hash
import Verif.Props.Sample
/-!
# Call histories
-/

namespace Props
open C Model Spec

/-- A step of a program that uses the library: a call (of any implementation, with any arguments, ending with any result), or
the program itself changing its memory.  Only calls change the library's global variables. -/
inductive Step : St → St → Prop where
  | enc (t : Target) (e : Env) (a : EncArgs) (r : Int) (s s' : St) (h : Runs (t.aead.encrypt a) e s r s') : Step s s'
  | dec (t : Target) (e : Env) (d : DecArgs) (r : Int) (s s' : St) (h : Runs (t.aead.decrypt d) e s r s') : Step s s'
  | hash (t : Target) (f : Ptr → Ptr → Nat → CM Int) (hf : t.hash = some f) (e : Env) (a : HashArgs) (r : Int) (s s' : St)
      (h : Runs (f a.out a.inp a.inlen) e s r s') : Step s s'
  | user (s s' : St) (h0 : s'.s0 = s.s0) (h1 : s'.s1 = s.s1) : Step s s'

/-- A finite history of steps. -/
inductive History : St → St → Prop where
  | nil (s : St) : History s s
  | cons (s s' s'' : St) (h : Step s s') (h' : History s' s'') : History s s''

/-- The state when the program starts: global variables are zero. -/
def fresh (mem : Nat → Nat → Byte) : St := ⟨mem, 0, 0⟩

/-- **C15** Encryption is history independent: after any history, a call returns the same value and makes the same changes to
memory as it does as the first call of the program, given the same memory. -/
theorem C15_encrypt_history_independent (t : Target) (e : Env) (mem0 : Nat → Nat → Byte) (s : St) (a : EncArgs)
    (V : ValidEnc e a) (L : t.limits.Enc e a) (_h : History (fresh mem0) s) :
    ∃ r s1 s2, Runs (t.aead.encrypt a) e s r s1 ∧ Runs (t.aead.encrypt a) e (fresh s.mem) r s2 ∧ s1.mem = s2.mem := by
  obtain ⟨s1, h1, m1⟩ := t.encryptOK e s a V L
  obtain ⟨s2, h2, m2⟩ := t.encryptOK e (fresh s.mem) a V L
  refine ⟨0, s1, s2, h1, h2, ?_⟩
  have hm : s.mem = (fresh s.mem).mem := rfl
  rw [m1, m2]
  simp only [bytesAt_mem_congr hm]
  exact putBytes_mem_congr (putBytes_mem_congr hm)

/-- **C15** Decryption is history independent. -/
theorem C15_decrypt_history_independent (t : Target) (e : Env) (mem0 : Nat → Nat → Byte) (s : St) (d : DecArgs)
    (V : ValidDec e d) (L : t.limits.Dec e d) (_h : History (fresh mem0) s) :
    ∃ r s1 s2, Runs (t.aead.decrypt d) e s r s1 ∧ Runs (t.aead.decrypt d) e (fresh s.mem) r s2 ∧ s1.mem = s2.mem := by
  obtain ⟨r1, s1, h1⟩ := dec_exists V L s
  obtain ⟨r2, s2, h2⟩ := dec_exists V L (fresh s.mem)
  have hm : s.mem = (fresh s.mem).mem := rfl
  have ha : t.accepts s d = t.accepts (fresh s.mem) d := by simp only [Target.accepts, bytesAt_mem_congr hm]
  have hp : t.plain s d = t.plain (fresh s.mem) d := by simp only [Target.plain, bytesAt_mem_congr hm]
  have c1 := dec_run V L h1
  have c2 := dec_run V L h2
  rw [ha, hp] at c1
  rcases c1 with ⟨hacc, rfl, m1⟩ | ⟨hacc, rfl, m1⟩ <;> rcases c2 with ⟨hacc2, rfl, m2⟩ | ⟨hacc2, rfl, m2⟩
  · exact ⟨0, s1, s2, h1, h2, by rw [m1, m2]; exact putBytes_mem_congr (putBytes_mem_congr hm)⟩
  · exact absurd hacc hacc2
  · exact absurd hacc2 hacc
  · exact ⟨-1, s1, s2, h1, h2, by rw [m1, m2]; exact putBytes_mem_congr hm⟩

/-- **C15**, stronger: the result depends only on the input bytes, not on any other memory nor on the addresses. -/
theorem C15_decrypt_depends_on_inputs (t : Target) (e1 e2 : Env) (s1 s2 s1' s2' : St) (d1 d2 : DecArgs) (r1 r2 : Int)
    (V1 : ValidDec e1 d1) (L1 : t.limits.Dec e1 d1) (V2 : ValidDec e2 d2) (L2 : t.limits.Dec e2 d2)
    (hk : bytesAt s1 d1.k 16 = bytesAt s2 d2.k 16) (hn : bytesAt s1 d1.npub 16 = bytesAt s2 d2.npub 16)
    (had : bytesAt s1 d1.ad d1.adlen = bytesAt s2 d2.ad d2.adlen)
    (hc : bytesAt s1 d1.c d1.clen = bytesAt s2 d2.c d2.clen)
    (h1 : Runs (t.aead.decrypt d1) e1 s1 r1 s1') (h2 : Runs (t.aead.decrypt d2) e2 s2 r2 s2') :
    r1 = r2 ∧ (r1 = 0 → bytesAt s1' d1.m (d1.clen - 16) = bytesAt s2' d2.m (d2.clen - 16)) := by
  have hl := congrArg List.length hc
  simp only [length_bytesAt] at hl
  have hge := V1.clen_ge
  rw [bytesAt_split V1.clen_ge, bytesAt_split V2.clen_ge] at hc
  obtain ⟨hb, ht⟩ := List.append_inj hc (by simp; omega)
  have ha : t.accepts s1 d1 = t.accepts s2 d2 := by simp only [Target.accepts, hk, hn, had, hb, ht]
  have hp : t.plain s1 d1 = t.plain s2 d2 := by simp only [Target.plain, hk, hn, hb]
  have c1 := dec_run V1 L1 h1
  have c2 := dec_run V2 L2 h2
  rw [← ha] at c2
  rcases c1 with ⟨hacc, rfl, m1⟩ | ⟨hacc, rfl, m1⟩ <;> rcases c2 with ⟨hacc2, rfl, m2⟩ | ⟨hacc2, rfl, m2⟩
  · exact ⟨rfl, fun _ => by rw [(dec_m V1 m1).1, (dec_m V2 m2).1, hp]⟩
  · exact absurd hacc hacc2
  · exact absurd hacc2 hacc
  · exact ⟨rfl, fun h => absurd h (by decide)⟩

/-- There are histories: encrypt twice with an stp variant, which leaves data in its global variables. -/
example : ∃ s, History (fresh Sample.st.mem) s := by
  let t := Target.a128aOpt32Stp
  obtain ⟨s1, h1, _⟩ := t.encryptOK _ (fresh Sample.st.mem) _ Sample.validEnc (Sample.limitsEnc t)
  obtain ⟨s2, h2, _⟩ := t.encryptOK _ s1 _ Sample.validEnc (Sample.limitsEnc t)
  exact ⟨s2, .cons _ _ _ (.enc t _ _ _ _ _ h1) (.cons _ _ _ (.enc t _ _ _ _ _ h2) (.nil _))⟩

/-- **C17** The stp variants accept the received tag `T*` for the computed tag `T` exactly if the first 16 bytes of the 7-round
permutations of `T* ‖ S ‖ 0` and `T ‖ S ‖ 0` agree, where `S` are the first 16 bytes of the MAC state. -/
theorem C17_stp_accepts_iff (t : Target) (hstp : t.stp = true) (e : Env) (s : St) (d : DecArgs)
    (V : ValidDec e d) (L : t.limits.Dec e d) :
    let K := bytesAt s d.k 16
    let N := bytesAt s d.npub 16
    let A := bytesAt s d.ad d.adlen
    let C := bytesAt s d.c (d.clen - 16)
    let Tstar := bytesAt s (d.c + (d.clen - 16)) 16
    let T := isapA128a.mac K N A C
    let S := (isapA128a.macState N A C).take 16
    ∃ r s', Runs (t.aead.decrypt d) e s r s' ∧ (r = 0 ∨ r = -1) ∧
      (r = 0 ↔ (Ascon.perm 7 (Tstar ++ S ++ zeros 8)).take 16 = (Ascon.perm 7 (T ++ S ++ zeros 8)).take 16) := by
  intro K N A C Tstar T S
  obtain ⟨r, s', h⟩ := dec_exists V L s
  have hsp : t.spec = isapA128a := by
    cases t <;> first | rfl | exact nomatch hstp
  have hacc : t.accepts s d ↔
      (Ascon.perm 7 (Tstar ++ S ++ zeros 8)).take 16 = (Ascon.perm 7 (T ++ S ++ zeros 8)).take 16 := by
    rw [Target.accepts, Target.acc, if_pos hstp, hsp]
    exact Iff.rfl
  refine ⟨r, s', h, ?_⟩
  rcases dec_run V L h with ⟨h1, rfl, _⟩ | ⟨h1, rfl, _⟩
  · exact ⟨Or.inl rfl, fun _ => hacc.1 h1, fun _ => rfl⟩
  · exact ⟨Or.inr rfl, fun h => absurd h (by decide), fun h => absurd (hacc.2 h) h1⟩

/-- **C17** Hence the stp variants return -1 only for wrong tags. -/
theorem C17_stp_rejects_only_wrong (t : Target) (hstp : t.stp = true) (e : Env) (s s' : St) (d : DecArgs)
    (V : ValidDec e d) (L : t.limits.Dec e d) (h : Runs (t.aead.decrypt d) e s (-1) s') :
    bytesAt s (d.c + (d.clen - 16)) 16 ≠
      isapA128a.mac (bytesAt s d.k 16) (bytesAt s d.npub 16) (bytesAt s d.ad d.adlen) (bytesAt s d.c (d.clen - 16)) := by
  intro heq
  obtain ⟨r, s2, h2, _, h3⟩ := C17_stp_accepts_iff t hstp e s d V L
  obtain ⟨rfl, _⟩ := h.det h2
  have : (-1 : Int) = 0 := h3.2 (by rw [heq])
  exact absurd this (by decide)

example : ∃ t : Target, t.stp = true ∧ ValidDec Sample.env Sample.dec ∧ t.limits.Dec Sample.env Sample.dec :=
  ⟨.a128aBi32Stp, rfl, Sample.validDec, Sample.limitsDec _⟩

end Props
