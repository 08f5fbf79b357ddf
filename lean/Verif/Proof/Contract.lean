import Verif.Model.Calls
import Verif.Proof.Mem
import Verif.Proof.SpecLemmas
/-!
# The contract between `isap.c` and `crypto_aead.c`

-/

namespace Model
open C

theorem Limits.enc_tolerant {L : Limits} {e : Env} {a : EncArgs} (h : e.strict = false) (h1 : a.adlen < L.maxLen)
    (h2 : a.mlen < L.maxLen) (h3 : Readable e a.ad (L.ext a.adlen)) : L.Enc e a :=
  ⟨.tolerant h .., .tolerant h .., .tolerant h .., .tolerant h .., .tolerant h .., .tolerant h .., h1, h2, h3⟩

theorem Limits.dec_tolerant {L : Limits} {e : Env} {a : DecArgs} (h : e.strict = false) (h1 : a.adlen < L.maxLen)
    (h2 : a.clen - 16 < L.maxLen) (h3 : Readable e a.ad (L.ext a.adlen)) : L.Dec e a :=
  ⟨.tolerant h .., .tolerant h .., .tolerant h .., .tolerant h .., .tolerant h .., h1, h2, h3⟩

/-- Code that works by bytes needs no more than a valid call. -/
theorem Limits.enc_byBytes {e : Env} {a : EncArgs} (V : ValidEnc e a) : Limits.byBytes.Enc e a :=
  ⟨aligned_one .., aligned_one .., aligned_one .., aligned_one .., aligned_one .., aligned_one .., V.adlen_lt,
    Nat.lt_of_le_of_lt (Nat.le_add_right _ 16) V.mlen_lt, V.ad⟩

theorem Limits.dec_byBytes {e : Env} {a : DecArgs} (V : ValidDecIn e a) : Limits.byBytes.Dec e a :=
  ⟨aligned_one .., aligned_one .., aligned_one .., aligned_one .., aligned_one .., V.adlen_lt,
    Nat.lt_of_le_of_lt (Nat.sub_le _ 16) V.clen_lt, V.ad⟩

/-- `isap_mac` computes the specified tag, changes no memory, and has no undefined behaviour. -/
def MacOK (P : Spec.Params) (L : Limits)
    (mac : (k npub ad : Ptr) → (adlen : Nat) → (c : Ptr) → (clen : Nat) → CM (List Byte)) : Prop :=
  ∀ (e : Env) (s : St) (k npub ad : Ptr) (adlen : Nat) (c : Ptr) (clen : Nat),
    Aligned e L.al k 16 → Aligned e L.al npub 16 → Aligned e L.al ad adlen → Aligned e L.al c clen →
    adlen < L.maxLen → clen < L.maxLen →
    Readable e k 16 → Readable e npub 16 → Readable e ad adlen → Readable e c clen →
    Readable e ad (L.ext adlen) → Readable e c (L.ext clen) →
    Runs (mac k npub ad adlen c clen) e s
      (P.mac (bytesAt s k 16) (bytesAt s npub 16) (bytesAt s ad adlen) (bytesAt s c clen)) s

/-- The same for an `isap_mac` that may also assign global variables. -/
def MacMemOK (P : Spec.Params) (L : Limits)
    (mac : (k npub ad : Ptr) → (adlen : Nat) → (c : Ptr) → (clen : Nat) → CM (List Byte)) : Prop :=
  ∀ (e : Env) (s : St) (k npub ad : Ptr) (adlen : Nat) (c : Ptr) (clen : Nat),
    Aligned e L.al k 16 → Aligned e L.al npub 16 → Aligned e L.al ad adlen → Aligned e L.al c clen →
    adlen < L.maxLen → clen < L.maxLen →
    Readable e k 16 → Readable e npub 16 → Readable e ad adlen → Readable e c clen →
    Readable e ad (L.ext adlen) → Readable e c (L.ext clen) →
    ∃ s', Runs (mac k npub ad adlen c clen) e s
      (P.mac (bytesAt s k 16) (bytesAt s npub 16) (bytesAt s ad adlen) (bytesAt s c clen)) s' ∧ s'.mem = s.mem

theorem MacOK.mem {P : Spec.Params} {L : Limits}
    {mac : (k npub ad : Ptr) → (adlen : Nat) → (c : Ptr) → (clen : Nat) → CM (List Byte)} (h : MacOK P L mac) :
    MacMemOK P L mac :=
  fun e s k npub ad adlen c clen a1 a2 a3 a4 h1 h2 h3 h4 h5 h6 h7 h8 =>
    ⟨s, h e s k npub ad adlen c clen a1 a2 a3 a4 h1 h2 h3 h4 h5 h6 h7 h8, rfl⟩

/-- `isap_enc` stores the message xored with the specified keystream, and nothing else. -/
def EncOK (P : Spec.Params) (L : Limits) (enc : (k npub m : Ptr) → (mlen : Nat) → (c : Ptr) → CM Unit) : Prop :=
  ∀ (e : Env) (s : St) (k npub m : Ptr) (mlen : Nat) (c : Ptr),
    Aligned e L.al k 16 → Aligned e L.al npub 16 → Aligned e L.al m mlen → Aligned e L.al c mlen → mlen < L.maxLen →
    Readable e k 16 → Readable e npub 16 → Readable e m mlen → Writable e c mlen → OverlapOK c m mlen →
    Runs (enc k npub m mlen c) e s () (putBytes s c (P.enc (bytesAt s k 16) (bytesAt s npub 16) (bytesAt s m mlen)))

/-- Reading the source ahead of a destination written front to back. -/
theorem bytesAt_ahead (s : St) {c m : Ptr} {n i w : Nat} {bs : List Byte} (h : OverlapOK c m n) (hb : bs.length ≤ i)
    (hw : i + w ≤ n) : bytesAt (putBytes s c bs) (m + i) w = bytesAt s (m + i) w := by
  apply bytesAt_putBytes_disjoint
  unfold OverlapOK at h
  unfold Disjoint
  simp only [add_blk, add_off]
  omega

end Model
