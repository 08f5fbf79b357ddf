import Verif.Model.Targets
import Verif.Model.Hash
/-!
# The programs in `/repo/tests`

The generators of known answers, the demo and the loops of the benchmarks: code that calls the API.  What a program prints is a
value (`Text`) that is threaded through; `fopen` succeeds or not as told by an argument; messages to `stderr` and the cycle counter
are left out.  The arrays are objects of the memory model.  The lengths `MAX_MESSAGE_LENGTH`, ... are arguments.
-/

namespace Model.Prog
open C

/-- What was written to a file.  Output of `fprintf` and `printf`, for example `tests/genkat_aead.c` lines 99-117. -/
abbrev Text := List Char

/-- A hexadecimal digit as printed by `%X`.  `tests/genkat_aead.c` line 150. -/
def digit (n : Nat) : Char := if n < 10 then Char.ofNat (48 + n) else Char.ofNat (55 + n)

/-- `%02X`: `tests/genkat_aead.c` line 150 -/
def hex2 (b : Byte) : Text := [digit (b.toNat / 16), digit (b.toNat % 16)]

/-- `%d`, `%llu`: `tests/genkat_aead.c` lines 99, 110, 126 -/
def dec (n : Int) : Text := (toString n).toList

/-- `init_buffer`: `tests/genkat_aead.c` lines 155-159, `genkat_hash.c` lines 117-120, `demo.c` lines 142-146, `bulk.c` lines 12-16. -/
def initBuffer (buffer : Ptr) (numbytes : Nat) : CM Unit :=
  forN numbytes 0 (fun i (_ : Unit) => store8 (buffer + i) (BitVec.ofNat 8 i)) ()

/-- `fprint_bstr`: `tests/genkat_aead.c` lines 145-153, `genkat_hash.c` lines 108-115, and `print_bstr`: `demo.c` lines 132-140. -/
def fprintBstr (fp : Text) (label : String) (data : Ptr) (length : Nat) : CM Text := do
  let fp ← forN length 0 (fun i fp => do
    let b ← load8 (data + i)
    pure (fp ++ hex2 b)) (fp ++ label.toList)
  pure (fp ++ "\n".toList)

/-- `memcmp(p, q, n) != 0`: `tests/genkat_aead.c` line 131, `demo.c` line 122 -/
def memcmp (p q : Ptr) (n : Nat) : CM Bool := do
  let a ← load 1 n p
  let b ← load 1 n q
  pure (a != b)

/-- The arrays and length cells of `generate_test_vectors`: `tests/genkat_aead.c` lines 73-79, `demo.c` lines 72-78.
`null` is the null pointer. -/
structure Bufs where
  key : Ptr
  nonce : Ptr
  msg : Ptr
  msg2 : Ptr
  ad : Ptr
  ct : Ptr
  clen : Ptr
  mlen2 : Ptr
  null : Ptr

/-- The arguments of the call in `tests/genkat_aead.c` line 109, `demo.c` line 100. -/
def Bufs.enc (b : Bufs) (mlen adlen : Nat) : EncArgs := ⟨b.ct, b.clen, b.msg, mlen, b.ad, adlen, b.null, b.nonce, b.key⟩

/-- The arguments of the call in `tests/genkat_aead.c` line 119, `demo.c` line 110. -/
def Bufs.dec (b : Bufs) (clen adlen : Nat) : DecArgs := ⟨b.msg2, b.mlen2, b.null, b.ct, clen, b.ad, adlen, b.nonce, b.key⟩

/-- `KAT_FILE_OPEN_ERROR`: `tests/genkat_aead.c` line 44 -/
def katFileOpenError : Int := -1
/-- `KAT_CRYPTO_FAILURE`: `tests/genkat_aead.c` line 46 -/
def katCryptoFailure : Int := -4

section
variable (A : Aead) (b : Bufs)

/-- One test vector: the body of the inner loop, `tests/genkat_aead.c` lines 99-135; also `demo.c` lines 90-128.  The result is
what was printed and the new value of `ret_val`, which is not 0 if the body ended with `break` (`return` in `demo.c`). -/
def vector (mlen adlen count : Nat) (fp : Text) : CM (Text × Int) := do
  let fp := fp ++ "Count = ".toList ++ dec count ++ "\n".toList
  let fp ← fprintBstr fp "Key = " b.key 16
  let fp ← fprintBstr fp "Nonce = " b.nonce 16
  let fp ← fprintBstr fp "PT = " b.msg mlen
  let fp ← fprintBstr fp "AD = " b.ad adlen
  let r ← A.encrypt (b.enc mlen adlen)
  if ← branch (r ≠ 0) then
    return (fp ++ "crypto_aead_encrypt returned <".toList ++ dec r ++ ">\n".toList, katCryptoFailure)
  let clen ← loadLen b.clen
  let fp ← fprintBstr fp "CT = " b.ct clen
  let fp := fp ++ "\n".toList
  let clen ← loadLen b.clen
  let r ← A.decrypt (b.dec clen adlen)
  if ← branch (r ≠ 0) then
    return (fp ++ "crypto_aead_decrypt returned <".toList ++ dec r ++ ">\n".toList, katCryptoFailure)
  let mlen2 ← loadLen b.mlen2
  if ← branch (mlen ≠ mlen2) then
    return (fp ++ "crypto_aead_decrypt returned bad 'mlen': Got <".toList ++ dec mlen2 ++ ">, expected <".toList ++ dec mlen ++
      ">\n".toList, katCryptoFailure)
  let ne ← memcmp b.msg b.msg2 mlen
  if ← branch ne then
    return (fp ++ "crypto_aead_decrypt did not recover the plaintext\n".toList, katCryptoFailure)
  return (fp, 0)

/-- The loop over `adlen`, `tests/genkat_aead.c` lines 97-136, with `n` iterations left: text, `count` and `ret_val`. -/
def adLoop (mlen : Nat) : (n adlen count : Nat) → Text → CM (Text × Nat × Int)
  | 0, _, count, fp => do
    let _ ← branch false
    return (fp, count, 0)
  | n + 1, adlen, count, fp => do
    let _ ← branch true
    let (fp, r) ← vector A b mlen adlen count fp
    if ← branch (r ≠ 0) then return (fp, count + 1, r)
    adLoop mlen n (adlen + 1) (count + 1) fp

/-- The loop over `mlen`, `tests/genkat_aead.c` lines 95-137, with `n` iterations left; its condition also tests `ret_val`. -/
def mLoop (maxAd : Nat) : (n mlen count : Nat) → Text → (ret : Int) → CM (Text × Int)
  | 0, _, _, fp, ret => do
    let _ ← branch false
    return (fp, ret)
  | n + 1, mlen, count, fp, ret => do
    let _ ← branch true
    if ← branch (ret ≠ 0) then return (fp, ret)
    let (fp, count, r) ← adLoop A b mlen (maxAd + 1) 0 count fp
    mLoop maxAd n (mlen + 1) count fp r

/-- `generate_test_vectors`, `tests/genkat_aead.c` lines 69-142 (also `crypto_aead/isapxv20/ref/genkat_aead.c`): what the file
contains at the end and what the function returns. -/
def genkat (maxM maxAd : Nat) (opened : Bool) : CM (Text × Int) := do
  initBuffer b.key 16
  initBuffer b.nonce 16
  initBuffer b.msg maxM
  initBuffer b.ad maxAd
  if ← branch (!opened) then return ([], katFileOpenError)
  mLoop A b maxAd (maxM + 1) 0 1 [] 0

/-- `generate_test_vectors`, `tests/demo.c` lines 70-129. -/
def demo (mlen adlen : Nat) : CM (Text × Int) := do
  initBuffer b.key 16
  initBuffer b.nonce 16
  initBuffer b.msg mlen
  initBuffer b.ad adlen
  vector A b mlen adlen 1 []

/-- The loop of `tests/bulk.c` lines 35-37 (`n` is `RUNS`), and that of `measure` in `tests/getcycles.c` lines 91-93 (`n` is
`NUM_BYTES / mlen`; the arrays there are filled with `rand()`). -/
def repeatEncrypt (n mlen adlen : Nat) : CM Unit :=
  forN n 0 (fun _ (_ : Unit) => do
    let _ ← A.encrypt (b.enc mlen adlen)
    pure ()) ()

/-- `main`, `tests/bulk.c` lines 18-40. -/
def bulk (runs mlen adlen : Nat) : CM Int := do
  initBuffer b.key 16
  initBuffer b.nonce 16
  initBuffer b.msg mlen
  initBuffer b.ad adlen
  repeatEncrypt A b runs mlen adlen
  return 0

end

section
variable (hash : Ptr → Ptr → Nat → CM Int) (msg digest : Ptr)

/-- The loop of `generate_test_vectors`, `tests/genkat_hash.c` lines 85-101, with `n` iterations left. -/
def hashLoop : (n mlen count : Nat) → Text → CM (Text × Int)
  | 0, _, _, fp => do
    let _ ← branch false
    return (fp, 0)
  | n + 1, mlen, count, fp => do
    let _ ← branch true
    let fp := fp ++ "Count = ".toList ++ dec count ++ "\n".toList
    let fp ← fprintBstr fp "Msg = " msg mlen
    let r ← hash digest msg mlen
    if ← branch (r ≠ 0) then
      return (fp ++ "crypto_hash returned <".toList ++ dec r ++ ">\n".toList, katCryptoFailure)
    let fp ← fprintBstr fp "MD = " digest 32
    let fp := fp ++ "\n".toList
    hashLoop n (mlen + 1) (count + 1) fp

/-- `generate_test_vectors`, `tests/genkat_hash.c` lines 68-106. -/
def genkatHash (maxM : Nat) (opened : Bool) : CM (Text × Int) := do
  initBuffer msg maxM
  if ← branch (!opened) then return ([], katFileOpenError)
  hashLoop hash msg digest (maxM + 1) 0 1 []

/-- The loop of `measure` in `tests/getcycles.c` lines 91-96, compiled for `crypto_hash`. -/
def repeatHash (n mlen : Nat) : CM Unit :=
  forN n 0 (fun _ (_ : Unit) => do
    let _ ← hash digest msg mlen
    pure ()) ()

end

end Model.Prog
