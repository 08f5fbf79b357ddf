# Formal model of isap-lwc/isap-code-package in Lean 4 — design

## 1. Layers

| layer | directory | content |
|---|---|---|
| specification | `lean/Verif/Spec/` | ISAP v2.0 mode, Ascon-p (5-bit S-box table), Keccak-p[400] (theta, rho, pi, chi, iota), Ascon-Hash, the stp tag check. Small, list/bit-vector based, shares no helper with the models. |
| C semantics | `lean/Verif/C/` | a C-like monad `CM` (section 2), valid buffers, SIMD lanes, ARM flexible operands, interleavings of threads. |
| models | `lean/Verif/Model/` | one definition per C function or macro, citing file and lines; `Targets.lean` enumerates the implementations. |
| proofs | `lean/Verif/Proof/` | helper lemmas; refinement of every model to the specification; trace and footprint theorems. |
| properties | `lean/Verif/Props/` | only the property theorems C01.. and their non-vacuity examples (`Sample.lean` holds the common concrete call). |
| tests | `lean/Verif/Test/` | known-answer vectors of the repository, run on the specification and on the models (tests; no theorem uses them). |

The C functions `isap_mac` and `isap_enc` of every implementation are `CM` programs. `crypto_aead.c` is one model
parameterised by them (`Model/Api.lean`; the file is textually the same everywhere except stp and isapa128av20/avx_512, which
have their own models). Each implementation is shown to satisfy one contract (`Proof/Contract.lean`, `Proof/Targets.lean`): run
from any memory in which the call is valid, it terminates without undefined behaviour, returns the specified value and changes
exactly the specified bytes. The API theorems are proved once from the contract, for every `t : Target`.

## 2. C semantics and simplifications

* `CM α` is a free monad: a tree of loads, stores, branches and accesses to the two global variables of the stp variants,
  ending in a value or in undefined behaviour. `run` interprets it sequentially and records a trace (address and width of every
  access, direction of every branch); `C/Threads.lean` interprets two trees interleaved, `C/Crash.lean` stops
  a tree after a number of steps. The same program text is the subject
  of all functional, memory-safety, constant-time and concurrency theorems.
* Memory is `object -> offset -> byte`; a pointer is (object, offset). `Env` says which bytes are readable and writable, the
  base address of objects, and whether a misaligned word access is undefined (`strict`). Out-of-bounds access, write to
  read-only memory, misaligned access under `strict`, a failed `assert`, an out-of-range index of a local array and a loop that
  does not end are distinct `UB` outcomes.
* Local variables and local arrays are Lean values, not objects. Alignment of local arrays and of the constant IV tables that
  the code casts to word pointers is assumed. As objects in memory are also modelled, for C51: the arrays `tag[16]` of decryption and
  `T`, `T_star` of the stp variants (`Model/Placement.lean`), the IV tables (`Model/Tables.lean`), `u8 state[40]` of isapa128v20/opt_64
  and of decryption in avx_512, `u8 ke[24]` of isapa128v20/opt_32 and opt_32_armv67m (`Model/StateArrays.lean`), `state_enc[40]`,
  `state_mac[40]` of encryption in avx_512 (`Model/AvxArrays.lean`), and the arrays `unsigned char state[50]` of the Keccak reference,
  which its permutation casts to `uint16_t *` (`Model/RefArrays.lean`; there each lane is read and written once per permutation).
  In the models for C53 (`Model/Bounds*.lean`) local arrays and tables of constants are arrays of exactly the declared size with checked
  accesses (`C/Array.lean`). Not arrays there: words that the optimized code accesses only through constant indices or members of
  unions (lanes, `B->l8[n & 7]` in the byte-wise rotations of opt_8 and bi_8), and the 14 bytes of the union in isapk128av20/avx512
  that are never initialised (`K128.Avx.Junk`).
* Word accesses through casted pointers are little-endian accesses, except in `C/ByteOrder.lean`, `Model/ByteOrder.lean`,
  `Model/BigEndian.lean` and `Model/K128Order.lean` (C46, C52). The big-endian branch of the Keccak reference
  (`brg_endian.h`) is not modelled; it cannot be built: it calls `fromBytesToWords` and `fromWordsToBytes`
  (`KeccakP-400-reference.c` lines 117-143), which are defined nowhere. The effective-type (strict aliasing) rule is not part of `run`; C50 treats
  it separately, for the caller's objects and for the local arrays that are modelled as memory.
* Pointer arithmetic on offsets is on natural numbers and does not wrap; computing an out-of-range pointer without
  dereferencing it is not undefined.
* Lengths are natural numbers with explicit reduction modulo 2^64 or 2^32 where the C type can wrap. `unsigned long` is 32
  bits for the ARM code. In isapa128v20/opt_64 and isapa128av20/avx_512, which name it `u32` and use it for lengths and indices, its
  size is a parameter of the model (`DataModel`: 64 bits under LP64, 32 bits under LLP64); these two are implementations of their own
  in `Target` for each value, and the limits on lengths depend on it.
* Integer promotions, the size of `int` and overflow of signed operations are not visible in the models of the functions, which use
  fixed-size words; `C/Integer.lean` and `Model/Integer.lean` treat them separately (C49).
* `memcpy` is a byte loop or a single store without alignment requirement.
* Straight-line code on local variables (permutations) is a pure Lean function. Inline assembly is the list of its
  instructions on named operands (`C/Arm.lean`, compared mechanically with the text); no instruction reads flags, what they do to
  them is in `C/AsmFlags.lean`. The API theorems run it on
  the operand names; C41 replaces the names by machine registers and immediate values as the constraints permit (`C/InlineAsm.lean`).
* The two assembler files of the ISAP-K code for ARM are modelled twice: in `Model/K128Arm.lean` as functions on lanes, used by the
  API theorems, and in `Model/KeccakAsm.lean` as programs, label by label and instruction by instruction, executed by the processor
  model `C/Thumb.lean` (registers, byte-addressed memory, flags Z and C, stack, branches, faults), which is the subject of C40. The
  second text was compared mechanically with the macro-expanded `.s` files (853 and 595 lines, no difference). Not modelled there:
  instruction encodings and branch ranges, instruction addresses (a label is a position in the program, a return address is a
  number), the Thumb bit of `lr`, interrupts, timing.
* Intrinsics of AVX-512 are functions on lists of lanes. Lanes the code leaves uninitialised are universally quantified
  (`K128.Avx.Junk`). Masked stores are stores of the bytes selected by the mask.
* The last 16 bytes of the uninitialised `state` in `isap_enc` (overwritten before use) are 0 in the model; C45 covers other contents.
* `do { } while` loops over tables (opt_32_tiny, opt_8_tiny, ARM Keccak) run with fuel 100 and become `ub diverges` when it runs
  out; the contracts prove that this does not happen.
* Stores of the tag by the ARM Keccak code are in ascending instead of descending order. In isapa128av20/opt_64 and the AVX
  code, the permutation at the end of the `ABSORB_MAC` macro is placed behind the loop as in the expanded text.
* `tag[i] == c[...]` summed into `eq_cnt` is assumed branch free (C21), as compilers translate it.
* isapxv20/ref: the wrappers of `permutation.c` are inlined, `DEBUG` is 0.
* crypto_aead_hash: the AEAD sources are symbolic links to those of crypto_aead, with another `config.h` that enables
  `crypto_hash`; the same model serves both, C27 is stated over call histories that include hash calls.

## 3. What is modelled

Every directory below `crypto_aead` and `crypto_aead_hash`:

* `ref` of isapa128av20, isapa128v20, isapk128av20, isapk128v20, and isapxv20/ref for the four parameter sets;
* isapa128av20: opt_64, opt_32, opt_32_compact, opt_32_tiny, opt_32_stp, opt_8, opt_8_tiny, bi_8, bi_32, bi_32_compact, bi_32_stp,
  bi_32_armv6, bi_32_armv6m, bi_32_armv6m_compact, bi_32_armv6m_stp, bi_32_armv7m, avx_512;
* isapa128v20: opt_64, opt_32, opt_32_armv67m;
* isapk128av20: opt_64, avx512, opt_32_armv6m, opt_32_armv7m; isapk128v20: opt_64, opt_32_armv6m, opt_32_armv7m;
* `crypto_hash` of the implementations in crypto_aead_hash/isapa128av20;
* the programs in `tests/` that call the API: the generators of known answers (also isapxv20/ref/genkat_aead.c), the demo, `bulk`
  and the measured loop of `getcycles`. What they print is a value; `fopen` succeeds or not as told by an argument; messages to
  `stderr`, `sprintf` of the file name, the cycle counter and the sorting and printing of cycle counts are left out. The array
  `ad[0]` of `bulk.c` (an extension of C) is an object without bytes.

Not modelled: `print_state` and debug output of isapxv20, build scripts, the compiler, caches and real scheduling (interleavings are sequentially consistent).

## 4. Defects found

* **isapa128av20/bi_32_armv7m does not compute ISAP** (`asconp.h`, macro ROUND, lines 95-162): the round is not the Ascon round.
  Ciphertexts are incompatible with all others (C03_not_armv7m, C08_not_armv7m, C22_armv7m_differs, C25_not_armv7m). It remains
  self-consistent: C01, C02 (length), C04-C06, C09-C21 include it. The decrypt-and-compare check in the generator of known answers
  therefore does not notice it (C35_self_check_insufficient); `tests/test_all.sh`, which compares the files, has the ARM versions
  commented out.
* **clen < 16 in decrypt wraps around** (`*mlen = clen - 16`): undefined behaviour in every implementation (C14_false).
* **isapk128av20/opt_64 and isapk128v20/opt_64 read up to 6 bytes behind the associated data** (`ABSORB_MAC`,
  `S.l16[8] ^= *(UINT64 *)(src + idx + 16)`): C09_overread, C09_false. The generator of known answers cannot reveal it: the bytes
  behind its associated data belong to the same 32-byte array (`kat_limits`).
* **The stp variants are not thread safe** (global `s0`, `s1`): C16_false_stp.
* **ARM code of isapk128av20/isapk128v20 takes lengths modulo 2^32** although the API type has 64 bits: C32_false_ad; an
  associated data of 2^32 bytes is authenticated like the empty one, and 2^32 bytes can be appended to a ciphertext
  (C32_false_forgery). Not reachable in a 32-bit address space.
* **isapa128v20/opt_64 and isapa128av20/avx_512 do the same where `unsigned long` has 32 bits** (LLP64, i.e. 64-bit Windows), where such
  buffers exist: `typedef unsigned long u32` for `rem_bytes`, `idx64`, `idx8`. Besides the forgeries (C32_false_ad, C32_false_forgery)
  messages of more than 2^32 bytes are not encrypted completely: opt_64 writes the last `mlen mod 8` bytes over earlier ones
  (C32_false_llp64_opt64), avx_512 writes nothing from byte 2^32 on (C32_false_llp64_avx512); in place, this part of the plaintext
  stays in the output (C32_false_llp64_in_place).
* **isapa128av20/avx_512 and messages of 2^63 bytes or more** (LP64): `rem_enc_bytes` is negative, `encbytes1` is the whole length, and
  the stack behind the 8-byte variable `tmpc1` is copied to the ciphertext: C32_false_avx512, C53_false_avx512. No machine has such
  buffers today; with a 32-bit `unsigned long` the loop in line 449 would not end (the model's loops always end, so no theorem is
  stated about that case).
* **Alignment**: all but the byte-wise reference code need word-aligned buffers on strict platforms (C28_false); isapa128v20/opt_*
  and avx_512 even at the place of the tag `c + mlen`, which is misaligned for most message lengths (C28_false_tag).
* **The constraints of the inline assembly of bi_32_armv6m, bi_32_armv6m_compact and bi_32_armv6m_stp are too weak** (`asconp.h` lines
  236-243): temporaries have `"=l"` and not `"=&l"`, the constants `"ri"`, and `C_o` is read after `tmp0` and other outputs are written.
  If the compiler puts `C_o` in a register, it may take that of `tmp0`; the round then uses `x0_o` as constant (C41_armv6m_shared,
  C41_not_armv6m). With an immediate value, which an optimising compiler uses because all calls pass literals, the code is right
  (C41_armv6m_partial). The statement also changes the flags without `"cc"`
  in its clobber list (C41_armv6m_flags, C41_not_armv6m_flags); those of the other directories do not (C41_flags_kept).
* **The portable optimized versions of isapa128av20 compute other functions on big-endian platforms**, without any warning: `U64BIG`
  swaps bytes unconditionally, and bytes and halves of lanes are accessed through a union (`b[0][7]`, `w[4][0]`). opt_64, opt_32,
  opt_32_compact and opt_32_tiny compute ISAP and Ascon-Hash with the Ascon permutation conjugated by a reordering of state bits: they
  work with themselves (C46_mode, C46_round_trip) but not with the reference code (C46_not, C46_not_hash). opt_8 and opt_8_tiny
  compute the right ciphertext body and hash (C46_opt8_body_partial, C46_opt8_hash), and only the tag is wrong (C46_not): the domain
  separation `s->w[4][0] ^= 1` hits byte 36 of the state instead of byte 39. The same holds for bi_32, bi_32_compact, bi_8
  and for opt_64, opt_32, opt_32_armv67m of isapa128v20 (C46_mixed_round_trip, C46_mixed_not, C46_mixed_not_hash). The stp,
  AVX-512 and other ARM versions are not modelled for big-endian platforms.
* **opt_64 of isapk128av20 and isapk128v20 does not authenticate all bytes on big-endian platforms** (`Props/KeccakOrder.lean`): `ABSORB_MAC`
  adds the end of a block of 18 bytes by `S.l16[8] ^= *((UINT64 *)(src+idx+16))`. On a big-endian platform the low half-word of the 64-bit
  integer holds bytes 22 and 23 after the start of the block, not bytes 16 and 17. Bytes 16 and 17 of every full block of the associated data and
  of the ciphertext can be changed at will, and the plaintext changes accordingly (C52_keccak_not); a zero byte can be appended to
  associated data (C52_keccak_not_padding). If the last full block is followed by fewer than 6 bytes, the tag depends on the bytes behind the
  data, which are old contents of the buffer in encryption and the tag in decryption: honest ciphertexts are rejected
  (C46_keccak_not_round_trip, for isapk128av20; with other lengths it decrypts what it encrypts, C46_keccak_round_trip_partial).
* **On big-endian platforms some of them accept forgeries** (`Props/Forgery.lean`): the padding bit is added as a byte after a partial
  lane, but as a number, or at a fixed byte of the interleaved state, after full lanes, and the two disagree on the order of bytes. In
  opt_64, opt_32 and opt_32_armv67m of isapa128v20, 7 zero bytes after associated data or after a ciphertext whose length is a multiple of 8
  leave the tag valid (in opt_64 not after an empty string); in bi_32 and bi_32_compact of isapa128av20, 5 zero bytes, and `crypto_hash` has
  these collisions too (C52_not_ad, C52_not_ciphertext, C52_not_hash). No key is needed.
* **Strict aliasing**: all but the byte-wise reference code access the caller's `unsigned char` buffers through pointers to wider
  integer types (C50_false); by the letter of the standard this is undefined for objects declared as arrays of characters. The portable
  and ARM versions of ISAP-A-128a read through the union `lane_t`, which is permitted, but store the ciphertext through
  `uint64_t *` (C50_union_writes), and read the message so in the same statement (`isap_enc`; the model counts this read as permitted). That
  is the only statement of `crypto_aead_encrypt` and `crypto_aead_decrypt` in these versions that stores by words
  (C50_union_encrypt_partial, C50_union_decrypt_partial). `crypto_hash` stores the digest in the same way, and nothing else (C50_hash_writes, C50_hash_stores).
  Arrays of characters that the code declares itself are treated in the same way: `state[50]` of the Keccak reference is read as
  16-bit lanes (C50_kref_state), `state[40]` and `state_mac[40]` are written as `u64` (C50_state, C50_avx_state), `ke[24]` as `u32` (C50_ke),
  and `tag[16]` as `u64`, or as `UINT16` in ISAP-K opt_64 (C50_tag_writes).
* **Arrays of bytes accessed by words**: `tag[16]` in isapa128v20/opt_64, opt_32, opt_32_armv67m and isapa128av20/avx_512, and `T[16]`
  in the stp variants, are declared as `unsigned char` without alignment and accessed through pointers to 64-bit words. If the compiler
  places them at another address than a multiple of 8, every decryption is undefined on strict platforms (C51_misaligned). The
  same holds for the tables `const uint8_t ISAP_IV_*[]` and `ASCON_HASH_IV[]` in all optimized versions of ISAP-A (C51_tables_misaligned,
  C51_hash_table_misaligned). In isapa128v20, `u8 state[40]` of opt_64 is accessed through `u64 *`, and `u8 ke[24]` of opt_32 and
  opt_32_armv67m through `u32 *` (C51_state_misaligned, C51_ke_misaligned). So are `state_enc[40]` and `state_mac[40]` of encryption in
  isapa128av20/avx_512 (C51_avx_misaligned). `unsigned char state[50]` of the Keccak reference is accessed through `uint16_t *`, so an odd
  address is enough (C51_kref_misaligned).
* **The derived key of the stream cipher stays in dead stack memory** after encryption and decryption by isapa128v20/opt_64
  (C51_key_remains, C51_key_remains_dec), opt_32 and opt_32_armv67m (C51_ke_key_remains, C51_ke_key_remains_dec), the Keccak
  reference (C51_kref_key_remains, C51_kref_key_remains_dec: in the array of `isap_rk`) and isapa128av20/avx_512 (C51_avx_key_remains,
  C51_avx_key_remains_dec); whoever reads it gets the plaintext from the ciphertext and the nonce (C51_state_plaintext_from_key,
  C51_avx_plaintext_from_key, C51_ke_plaintext_from_key, C51_kref_plaintext_from_key).
* **The valid tag of a forged message stays in dead stack memory** after the rejection (C51_tag_remains): nothing clears it. In the Keccak
  reference the session key of ISAP_MAC remains as well, in the array `state` of `isap_rk` (C51_kref_authkey_remains,
  C51_kref_authkey_remains_rejected); whoever reads it can compute the valid tag (C51_kref_tag_from_rejected,
  C51_kref_forgery_from_rejected). isapa128v20/opt_64 and isapa128av20/avx_512 leave it in the array `state` of `isap_mac` (avx_512
  after encryption: in `state_mac`), together with the rest of the state before the last permutation (C51_state_authkey_remains,
  C51_avx_authkey_remains, C51_state_authkey_remains_rejected, C51_state_authkey_remains_dec): one call of the permutation on these 40
  bytes gives the valid tag (C51_state_tag_from_rejected, C51_state_forgery_from_rejected).
* **isapa128av20/bi_8 is undefined where `int` has 16 bits**, as on 8-bit AVR processors (the README offers it for 8-bit processors):
  `ROR8(a, n) = a >> n | a << (8 - n)` (`asconp.h` line 52) is called with `n` = 0 (`ROR(x, 1)`, `ROR(x, 5)`, `ROR(x, 7)`), and then
  shifts a byte from 0x80 into or beyond the sign bit (C49_bi8_avr, C49_bi8_false). The value is not used after conversion to
  `uint8_t`, so that a compiler that does not exploit the undefined case gives the right result. In the same way
  `ISAP_IV1[0] | (ISAP_IV1[1] << 8)` in the 64-bit code of ISAP-K (C49_iv_false), where a 16-bit `int` is not to be expected.

## 5. Properties: what is modelled and how it is proved

* **C01, C02, C05, C06, C10, C11, C12, C13** API theorems about encrypt and decrypt run in `CM` on arbitrary memories; corollaries
  of the contract. For C12 the contract allows the output to begin at or before the input (`OverlapOK`).
* **C03** decrypt contract; false for bi_32_armv7m (witness evaluated in the kernel).
* **C04** from the contract: on -1 the final memory equals the initial one outside `*mlen`; and from the trace: no write elsewhere.
* **C07** refinement of the ref model to the spec (byte-wise lazy and eager counters vs padded blocks), by induction on the input.
* **C08** every implementation satisfies the contract of the same spec: round function lemma (bit-wise), representation lemma (bit
  interleaving), loop lemma.
* **C09** by running in the memory restricted to the buffers (`restrict`) and monotonicity of `run`; over-read: negation.
* **C14** false; `C14_truncated_is_undefined` for every implementation and every clen < 16; positive part `C14_partial`.
* **C15** model runs are functions of arguments and memory, proved over arbitrary finite call histories; for stp the globals are
  part of the state and the theorem says the result does not depend on their initial values.
* **C16** two-thread interleavings of the `CM` trees; commutation proof for disjoint footprints; counterexample schedule for stp.
* **C17** decrypt model of stp; acceptance condition characterised. Whether a wrong tag is ever accepted depends on collisions of a
  truncated permutation and is not part of the statement.
* **C18, C19, C20** from the contract and spec lemmas.
* **C21** relational proof over the trees (`Proof/Shape.lean`): equal shape implies equal traces.
* **C22, C23** explicit inverses of the round functions; linear layers by bit-level linear algebra; all coded permutations.
* **C24** injectivity of padding and of the block sequence with the domain separation marker; connection to the code.
* **C25-C27** model of `crypto_hash`, refinement to the Ascon-Hash spec; in-place and null input; call histories.
* **C28** positive for ref, and for all on tolerant platforms; negation with witnesses for each other implementation.
* **C29, C30** per-variant lemmas, stated against the specification permutation / bit positions.
* **C31** byte-wise difference of initial states plus injectivity of the permutation.
* **C32** lengths: outputs for all lengths, every byte is read; negation for 32-bit lengths (ARM, and LLP64 for two implementations):
  accepted forgeries, and ciphertext bytes that are never written (the call ends normally without write access to them, from every
  memory: `Ends`, `Proof/Llp64.lean`).
* **C33** loop invariant of the fused loop.
* **C34** factorisation of the API functions through the re-keying function; prefix-sharing of its intermediate states.
* **C35, C36, C37** models of the programs in `CM`; the files are specified in `Spec/Kat.lean`; induction over the loops with the
  contract of the implementation for each call.
* **C38** interleavings of the `CM` trees of any number of threads (`Pool`, `schedule`); invariant: each thread is ahead of the state
  in which it would run alone, on the memory it may use, and on the globals if it is the one thread that may use them. The
  interleaving is sequentially consistent, with one access per step (a word or, for a `memcpy` or masked store of a block in
  ISAP-K, 18 bytes). `C38_no_race` shows that no schedule reaches a data race, the condition under which C11 promises that behaviour.
* **C39** as C21.
* **C40** symbolic execution of the assembler text: a lemma per instruction, each round related to the round function of
  `Model/K128Arm.lean`, the loops by induction on the number of rounds or bytes. `KeccakP400_Permute_Nrounds` with 0 rounds is
  outside the precondition (it would run past the table of constants).
* **C41** simulation between the instructions on names and on registers: each write goes to a register that no live name shares. For
  armv6m only the first instruction reads `C_e`, so that it may be anywhere; `C_o` must not share a register with an output.
* **C42** from C03, C24 and the bijectivity of the permutations: compare the final states, then the states before the last call of
  `p_H`, whose parts beyond the rate the last block does not change. That inputs with equal tags exist is shown by counting.
* **C43** `C/Crash.lean` stops a tree after n steps (a step is one access or branch). Invariant `Once` (`Proof/Once.lean`): the program
  stores to each byte at most once, to consecutive bytes. Steps are in program order; a compiler may reorder stores, so that the order
  (tag last, verification before plaintext) is a statement about the source. The old-or-final claim is per byte.
* **C44** The globals `s0`, `s1` of the stp variants are part of the state of the model; the other implementations have no variables
  with static storage that are not constant (read off the source: `static`, file-scope declarations). Non-stp: the trees contain no
  access to globals. Stp: the run is taken apart (`Proof/Static.lean`); after `isap_mac` nothing writes the globals. The stack and
  registers, which do hold key material after a call, are not modelled; the code does not erase them.
* **C45** `Model/Locals.lean` repeats the functions whose local `state` is used before all of it is set, with arbitrary initial
  contents. For the optimized versions the programs are shown to be equal; for the reference code the contract of `isap_enc` is proved
  again. `C45_model_is_instance`: the model used everywhere else is the one with zeros. Reading an indeterminate value is not undefined
  behaviour in this model; variables all of whose bytes are set before any use (loop temporaries, `tag`, `y`, `ka_star`) are not
  treated.
* **C46** `Model/ByteOrder.lean` has `crypto_aead.c`, and `isap.c` and `asconp.h` of six versions of isapa128av20, with
  the byte order of the platform as a parameter; with `little` they are definitionally the functions used elsewhere (`C46_little`).
  The Ascon reference code accesses its state and its arguments by bytes only, apart from the length cell. For it the contracts of
  the two API functions are proved for either byte order. `Proof/BigEndian.lean`: the big-endian code is equal to the
  little-endian code with other macros (`impl_big`: the permutations conjugated by reversing the bytes of the lanes and by the
  exchange of bits 0 and 24 of lane 4), to which the generic correctness proof of the mode applies; for opt_8 the two
  reversals cancel. `Proof/BigEndianWitness.lean`: concrete tags and digests. `Model/BigEndian.lean` has the
  implementations that are not ISAP with some permutation on big-endian platforms; see C52. `Model/K128Order.lean` is opt_64 of ISAP-K:
  `Proof/K128Order.lean` gives tag and keystream as functions of the bytes in memory, including those behind the data
  (`macF`, `encF`), and `Proof/K128OrderWitness.lean` two concrete tags for isapk128av20 (those for isapk128v20 are not evaluated in the kernel, because
  of its 1600 rounds of Keccak per tag).
* **C47** `Proof/Steps.lean`: `Steps f n Q`, by recursion on the program `f`: at most `n` events on every path, whatever is read, and a
  result with `Q`; rules for sequences, branches and the loops. `Proof/Work.lean`: bounds for every function of every `isap.c`.
  The length that decryption uses is read back from `*mlen`, so its bound is about executions (`EndsIn`, `Proof/WorkApi.lean`): nothing
  is stored between writing and reading it. The bounds are `24 * (adlen + mlen) + 8200`, for all implementations, and
  `2 * inlen + 110` for `crypto_hash`. Loops with a constant number of iterations in straight-line code (rounds of a permutation,
  bytes of a state) are not events in all models.
* **C48** `Model/BlackBox.lean` links the model of each `isap.c` with an arbitrary function on states (`t.aeadWith perm`): the state is
  converted to bytes with the conversions of the implementation, the function is applied, the result is converted back. The lemmas
  about the mode code (`RepOK`, `StpOK`, `CfgOK`, `PermOK`, `PrimsOK`) are about an arbitrary family of permutations, so that they
  apply here and to the real permutations. `Spec/Queries.lean` lists the inputs of the permutation in the specification;
  `Proof/Queries.lean` shows that functions that agree on them give the same results. "Asks" is meant as dependence: a call of the
  permutation whose result is not used would not be noticed. `isapa128av20/avx_512` is excluded: its `isap_mac_enc` runs the halves
  of a 12-round permutation beside 6-round ones, so that it does not call a 12-round permutation at all.
  `isapa128av20/bi_32_armv7m`, whose permutation is not Ascon-p (section 4), is included: its mode code is right.
* **C49** `C/Integer.lean` gives integer expressions their value by the rules of C (promotion, usual arithmetic conversions, types of
  constants, undefined cases) for a platform, i.e. sizes of `int`, `long` and `size_t`. `Model/Integer.lean` has the expressions of the
  code with a shift, a product, a negation or `int` arithmetic, with the declared types of their operands, and the functions made of
  them (`ROUND`, `ROR`, `to_bit_interleaving`, ...) in the option monad. The theorems equate them with the functions of the other
  models. Expressions on words of 32 and 64 bits are evaluated symbolically; expressions on bytes by evaluating all 256 values and
  all amounts that occur, which is the whole domain; 16-bit lanes symbolically. Index arithmetic on lengths is the subject of C32.
* **C50** `accesses` (`C/EffectiveType.lean`) lists the accesses of an execution with the alignment requirement of the type used. For
  code that ends normally at every address on a strict platform (C28) no access can have a requirement above 1, because otherwise some
  addresses would make it misaligned (`words_fail`); conversely the failure at odd addresses shows an access by words (`chars_run`).
  For the versions that read through a union, the store of the first word of the ciphertext is found in the execution itself.
  C50_accesses: the list is the sequence of loads and stores in the trace of `run`.
  `Props/EffectiveTypeLocal.lean`: for local arrays the offending access is found in the execution, wherever the arrays are; that the
  others access `tag[16]` as characters (C50_tag_partial) follows from C51, by moving only this object (`words_fail_at`).
  `Props/UnionAccess.lean`: which stores are by words is proved function by function, for all accesses (`AllAcc`, a congruence for
  sequencing, conditionals and loops), without assumptions on the call.
* **C51** `Target.decryptAt` has the local arrays in memory, at addresses outside of the caller's buffers; it is related to
  `crypto_aead_decrypt` by following both executions (`DecryptAtOK`). `Target.aeadAt` has the tables in read-only memory. A run
  changes only writable bytes (`run_frame`), so that the tables keep their contents; `Agree` (equal outcomes in all states with
  these contents) is a congruence for sequencing, branches and conditionals, and a load of a table agrees with the constant. For the
  exceptions, a run is taken apart until the first access to the array, which is only defined if it is aligned. For `state` and `ke`,
  `EncIn` and `MacIn` (`Proof/StateArrays.lean`) say what `isap_enc` and `isap_mac` leave in the array (exactly: `MacLeaves` in
  `Proof/StateAuthKey.lean`); the two arrays of opt_64 may be
  in the same place. `isap_mac_enc` of avx_512 is split at the accesses to its arrays; the part between them is the same program in
  both models, so its run is taken from the other theorem (`runs_isapMacEncIn`). For the Keccak reference, `Rsim` (`Proof/RefArrays.lean`) relates runs of
  the model with arrays as values to runs of the model with arrays in memory; it is a congruence for sequencing and loops, and its
  relation lists the arrays that exist at the moment, with their contents. For the session key `isap_mac` is split before its
  derivation (`macPre`, `macPost` in `Proof/RefAuthKey.lean`).
* **C52** Where C46_mode applies, the code is ISAP with some bijection as permutation, and the argument of C42 holds for any bijection
  (`collision_of_same_tag`). For the others, `Lanes` (`Proof/Lanes.lean`) is what the code does with lanes for any way of loading, storing
  and padding; `lanesImpl` proves that the code computes these functions, `Proof/CipherApi.lean` the API functions for any mac and
  any stream cipher. That zero bytes can be appended then follows from one equation between two constants: the padding after full
  lanes is that of a partial lane of zeros (`absorb_zeros`, `full_eq`). bi_8 has no such pair; for it the property is not proved.
  For opt_64 of ISAP-K, `macF_congr`: the tag does not depend on bytes 16 and 17 of full blocks.
* **C53** A second model of every implementation (`Target.aeadChk`, `Target.hashChk`) has arrays of the declared sizes whose elements
  may be unwritten; `Chk` (`Proof/Checked.lean`) relates it to the first model: same accesses to memory, same branches, and never
  `UB.localOob`. It is a congruence for sequencing, conditionals and loops; loops carry invariants about indices. Because the outcomes of
  both models are equal for all arguments, all other theorems hold of the checked programs too.

## 6. Trusted base

* Lean 4.33.0's kernel. No axioms beyond `propext`, `Classical.choice`, `Quot.sound` (`#print axioms` of every property theorem,
  section 7). No `sorry`, `native_decide`, `bv_decide`, no own axioms.
* The reading of the C, assembly and intrinsics text into `Model/` with the simplifications of section 2. Nothing was compiled or run.
* The specification files `Spec/` and the notions used in statements: `CM`, `run`, `Runs`, `bytesAt`, `ValidEnc`, `ValidDec`,
  `Limits`; for C40 the processor model `C/Thumb.lean` and `Spec/AsmCall.lean`; for C41 the
  reading of operand constraints in `C/InlineAsm.lean` (`Asm.Permits`).

## 7. Axioms

Generated with `#print axioms`: see `AXIOMS.txt`.

## 8. Seeded bugs

`seeded/LOG.jsonl` lists wrong programs tried in a scratch copy and the theorems that caught them.
`failed` are the theorems (lemmas included) whose proofs no longer check. `lake build` does not go on to modules that import a failed
one, so `property_theorems_lost` is computed: the property theorems that depend on a failed one in the unedited project. An entry
therefore shows that the edit does not go unnoticed, not always that each of these statements has become false. In lines
714-727 (C50) the theorems of C50 were built alone, without the modules that fail before them; in lines 720-727 nothing else was built.
Entries with no failed theorem are edits that survived; most are equivalent programs, as `breaks` says, and where a theorem was too weak
`tightened` names what was added.
