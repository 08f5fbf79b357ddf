import Verif.Proof.Calls
import Verif.Proof.Reads
import Verif.Props.Sample
/-!
# Truncated ciphertexts, data-independent traces
-/

namespace Props
open C Model

/-! ## C14 -/

/-- A call of `crypto_aead_decrypt` with a ciphertext shorter than a tag: all buffers have the documented sizes. -/
structure ShortDec (e : Env) (d : DecArgs) : Prop where
  k : Readable e d.k 16
  npub : Readable e d.npub 16
  ad : Readable e d.ad d.adlen
  c : Readable e d.c d.clen
  mlen : Writable e d.mlen 8
  short : d.clen < 16
  adlen_lt : d.adlen < 2 ^ 64

/-- The full statement of **C14** for one implementation: truncated ciphertexts are rejected, without undefined behaviour.
It is false for every implementation, see `C14_false`. -/
def C14_statement (t : Target) : Prop :=
  ∀ e s d, ShortDec e d → e.strict = false → ∃ s', Runs (t.aead.decrypt d) e s (-1) s'

/-- What happens instead: `clen - 16` wraps around, and the call has undefined behaviour unless the huge number of bytes
`c[0 .. 2^64 - 16 + clen)` (modulo `2^32` for the implementations with 32-bit lengths) may be read. -/
theorem C14_truncated_is_undefined (t : Target) (e : Env) (s : St) (d : DecArgs) (hs : d.clen < 16)
    (h : ¬ Readable e d.c ((2 ^ 64 - 16 + d.clen) % t.limits.maxLen)) : IsUB (t.aead.decrypt d) e s := by
  rcases runs_or_ub (t.aead.decrypt d) e s with ⟨r, s', hr⟩ | hu
  · have := (t.decReads d e s r s' hr).1
    rw [Nat.mod_eq_of_lt (b := 2 ^ 64) (by omega), Nat.add_comm d.clen] at this
    exact absurd this h
  · exact hu

/-- Decrypting a ciphertext of 5 bytes. -/
def shortDec : DecArgs := { Sample.dec with clen := 5 }

theorem shortDec_short : ShortDec Sample.env shortDec where
  k := Sample.readable 5 16 (by decide)
  npub := Sample.readable 4 16 (by decide)
  ad := Sample.readable 3 20 (by decide)
  c := Sample.readable 0 5 (by decide)
  mlen := Sample.writable 8 8 (by decide) (by decide)
  short := by decide
  adlen_lt := by decide

/-- No ordinary buffer is that large. -/
theorem shortDec_not_readable (t : Target) : ¬ Readable Sample.env shortDec.c ((2 ^ 64 - 16 + shortDec.clen) % t.limits.maxLen) := by
  intro h
  have hl : 19 < (2 ^ 64 - 16 + shortDec.clen) % t.limits.maxLen := by
    show 19 < (2 ^ 64 - 16 + 5) % t.limits.maxLen
    cases t
    case a128aAvx512 d => cases d <;> decide
    case a128Opt64 d => cases d <;> decide
    all_goals first
      | exact (by decide : 19 < (2 ^ 64 - 16 + 5) % 2 ^ 64)
      | exact (by decide : 19 < (2 ^ 64 - 16 + 5) % 2 ^ 32)
  exact absurd (h 19 hl) (by decide)

/-- **C14** is false of the code, for every implementation: with a ciphertext of 5 bytes in a buffer of the documented size the
call has undefined behaviour. -/
theorem C14_false (t : Target) : ¬ C14_statement t := by
  intro h
  obtain ⟨s', hr⟩ := h Sample.env Sample.st shortDec shortDec_short rfl
  exact hr.not_ub (C14_truncated_is_undefined t _ _ _ (by decide) (shortDec_not_readable t))

example (t : Target) : IsUB (t.aead.decrypt shortDec) Sample.env Sample.st :=
  C14_truncated_is_undefined t _ _ _ (by decide) (shortDec_not_readable t)

/-- The part of **C14** that holds: from 16 bytes on, every ciphertext is handled, with result 0 or -1.  Missing: `clen < 16`. -/
theorem C14_partial (t : Target) (e : Env) (s : St) (d : DecArgs) (V : ValidDec e d) (L : t.limits.Dec e d) :
    ∃ s', Runs (t.aead.decrypt d) e s 0 s' ∨ Runs (t.aead.decrypt d) e s (-1) s' := by
  obtain ⟨r, s', h⟩ := dec_exists V L s
  refine ⟨s', ?_⟩
  rcases dec_run V L h with ⟨_, rfl, _⟩ | ⟨_, rfl, _⟩
  · exact .inl h
  · exact .inr h

/-! ## C21 -/

/-- **C21** The trace of encryption (addresses and widths of all accesses, all branches) does not depend on the contents of
memory: key, nonce, associated data, message, or anything else. -/
theorem C21_encrypt_trace (t : Target) (e : Env) (a : EncArgs) (s1 s2 s1' s2' : St) (r1 r2 : Int) (tr1 tr2 : List Ev)
    (h1 : run (t.aead.encrypt a) e s1 = .ok r1 s1' tr1) (h2 : run (t.aead.encrypt a) e s2 = .ok r2 s2' tr2) : tr1 = tr2 := by
  have h := (t.shape.encrypt a).alike e s1 s2
  rw [h1, h2] at h
  exact h.1

/-- **C21** The trace of decryption does not depend on the contents of memory except through the result. -/
theorem C21_decrypt_trace (t : Target) (e : Env) (d : DecArgs) (s1 s2 s1' s2' : St) (r : Int) (tr1 tr2 : List Ev)
    (h1 : run (t.aead.decrypt d) e s1 = .ok r s1' tr1) (h2 : run (t.aead.decrypt d) e s2 = .ok r s2' tr2) : tr1 = tr2 :=
  t.shape.decrypt d e s1 s2 r s1' tr1 s2' tr2 h1 h2

/-- Whether encryption runs into undefined behaviour does not depend on the contents of memory either. -/
theorem C21_encrypt_defined (t : Target) (e : Env) (a : EncArgs) (s1 s2 : St) :
    IsUB (t.aead.encrypt a) e s1 ↔ IsUB (t.aead.encrypt a) e s2 := by
  have h := (t.shape.encrypt a).alike e s1 s2
  cases h1 : run (t.aead.encrypt a) e s1 <;> cases h2 : run (t.aead.encrypt a) e s2 <;> rw [h1, h2] at h
  · exact ⟨fun ⟨u, hu⟩ => (by rw [h1] at hu; exact nomatch hu), fun ⟨u, hu⟩ => (by rw [h2] at hu; exact nomatch hu)⟩
  · exact h.elim
  · exact h.elim
  · exact ⟨fun _ => ⟨_, h2⟩, fun _ => ⟨_, h1⟩⟩

/-- Non-vacuity: there are such runs, from memories with different keys, messages, ... -/
example (t : Target) : ∃ s1' tr1 s2' tr2, run (t.aead.encrypt Sample.enc) Sample.env Sample.st = .ok 0 s1' tr1 ∧
    run (t.aead.encrypt Sample.enc) Sample.env ⟨fun _ _ => 0, 0, 0⟩ = .ok 0 s2' tr2 := by
  obtain ⟨s1, ⟨tr1, h1⟩, _⟩ := t.encryptOK _ Sample.st _ Sample.validEnc (Sample.limitsEnc t)
  obtain ⟨s2, ⟨tr2, h2⟩, _⟩ := t.encryptOK _ ⟨fun _ _ => 0, 0, 0⟩ _ Sample.validEnc (Sample.limitsEnc t)
  exact ⟨_, _, _, _, h1, h2⟩

example (t : Target) : ∃ r1 s1' tr1 r2 s2' tr2, run (t.aead.decrypt Sample.dec) Sample.env Sample.st = .ok r1 s1' tr1 ∧
    run (t.aead.decrypt Sample.dec) Sample.env ⟨fun _ _ => 0, 0, 0⟩ = .ok r2 s2' tr2 := by
  obtain ⟨r1, s1, ⟨tr1, h1⟩⟩ := dec_exists Sample.validDec (Sample.limitsDec t) Sample.st
  obtain ⟨r2, s2, ⟨tr2, h2⟩⟩ := dec_exists Sample.validDec (Sample.limitsDec t) ⟨fun _ _ => 0, 0, 0⟩
  exact ⟨_, _, _, _, _, _, h1, h2⟩

end Props
