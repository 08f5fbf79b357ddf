{"id": "C01", "title": "Decrypting an honest ciphertext returns the message", "statement": "For every implementation, if crypto_aead_encrypt is called on (m, ad, npub, k) and its whole output is passed to crypto_aead_decrypt with the same ad, npub and k, then decrypt returns 0, sets *mlen to the original message length and stores exactly the original message.", "quantifier": "all keys, nonces, associated data and messages of every length, all implementations (including the tag-verification-by-permutation stp variants), all well-formed placements of the buffers; calls within the implementation's limits on alignment (C28), length (C32) and bytes readable behind ad (C09)", "why_tests_cant": "KATs check lengths 0..32 with one key/nonce pattern; the property is about every length (every residue modulo the rate) and every byte value.", "anchors": ["crypto_aead/*/*/crypto_aead.c:crypto_aead_encrypt", "crypto_aead/*/*/crypto_aead.c:crypto_aead_decrypt", "crypto_aead/isapa128av20/ref/isap.c:isap_enc,isap_mac"]}
{"id": "C02", "title": "Encrypt always succeeds and reports the right length", "statement": "crypto_aead_encrypt returns 0 and sets *clen to mlen+16, and the bytes c[0..mlen+16) are the ciphertext body followed by the 16-byte tag, for every input.", "quantifier": "all keys, nonces, AD, messages with mlen+16 < 2^64, all implementations; calls within the implementation's limits on alignment (C28), length (C32) and bytes readable behind ad (C09)", "why_tests_cant": "Needs every length, including multiples of the rate and the empty message.", "anchors": ["crypto_aead/*/*/crypto_aead.c:crypto_aead_encrypt", "crypto_aead/*/*/crypto_aead.c:crypto_aead_decrypt"]}
{"id": "C03", "title": "Decrypt accepts exactly the matching tag", "statement": "crypto_aead_decrypt returns 0 if and only if the last 16 bytes of the ciphertext equal the ISAP tag of (k, npub, ad, body); otherwise it returns -1. No other return value occurs. (All implementations except the stp variants, see C17.)", "quantifier": "all keys, nonces, AD, ciphertexts of length at least 16; calls within the implementation's limits on alignment (C28), length (C32) and bytes readable behind ad (C09)", "why_tests_cant": "Acceptance of a wrong tag would be missed by any sample: there are 2^128 tags per message.", "anchors": ["crypto_aead/*/*/crypto_aead.c:crypto_aead_encrypt", "crypto_aead/*/*/crypto_aead.c:crypto_aead_decrypt"]}
{"id": "C04", "title": "No unverified plaintext is released", "statement": "When crypto_aead_decrypt returns -1, no byte of the plaintext buffer, nor of any other caller-visible memory except the length cell *mlen, has been changed.", "quantifier": "all ciphertexts that do not verify, all initial memory contents, all implementations; calls within the implementation's limits on alignment (C28), length (C32) and bytes readable behind ad (C09)", "why_tests_cant": "It is a statement about every byte of memory for every rejected input.", "anchors": ["crypto_aead/*/*/crypto_aead.c:crypto_aead_encrypt", "crypto_aead/*/*/crypto_aead.c:crypto_aead_decrypt"]}
{"id": "C05", "title": "Every tag modification is rejected", "statement": "If a ciphertext verifies, then the same ciphertext with any different 16-byte tag does not verify (same key, nonce, AD, body). For each (k, npub, ad, body) exactly one tag is accepted. (All implementations except the stp variants, see C17.)", "quantifier": "all inputs and all 2^128-1 wrong tags; calls within the implementation's limits on alignment (C28), length (C32) and bytes readable behind ad (C09)", "why_tests_cant": "The number of wrong tags is astronomically large; an off-by-one in the comparison (e.g. only 15 bytes compared) shows up only on particular tags.", "anchors": ["crypto_aead/*/*/crypto_aead.c:crypto_aead_encrypt", "crypto_aead/*/*/crypto_aead.c:crypto_aead_decrypt"]}
{"id": "C06", "title": "Accepted ciphertexts are canonical", "statement": "If crypto_aead_decrypt accepts c and stores m, then crypto_aead_encrypt of m under the same key, nonce and AD yields exactly c. In particular two different ciphertexts never decrypt successfully to the same message under the same (k, npub, ad). (All implementations except the stp variants, see C17.)", "quantifier": "all keys, nonces, AD and accepted ciphertexts; calls within the implementation's limits on alignment (C28), length (C32) and bytes readable behind ad (C09)", "why_tests_cant": "Universally quantified over accepted ciphertexts, which tests cannot enumerate.", "anchors": ["crypto_aead/*/*/crypto_aead.c:crypto_aead_encrypt", "crypto_aead/*/*/crypto_aead.c:crypto_aead_decrypt"]}
{"id": "C07", "title": "The reference code implements the ISAP v2.0 mode", "statement": "For each of the four parameter sets (ISAP-A-128a, ISAP-A-128, ISAP-K-128a, ISAP-K-128) the reference crypto_aead_encrypt/decrypt compute the ISAP v2.0 mode (block-wise padded absorption, bit-wise re-keying, encrypt-then-MAC with domain separation) over Ascon-p or Keccak-p[400] for every input.", "quantifier": "all keys, nonces, AD and messages of all lengths; the four parameter sets; both the dedicated ref directories and the generic isapxv20 code", "why_tests_cant": "KATs cover 1089 length pairs per parameter set with one fixed key/nonce; the code works byte-wise with counters (lazy permutation for AD, eager for C) whereas the spec is block-wise, so equality is an inductive statement.", "anchors": ["crypto_aead/*/ref/isap.c:isap_rk,isap_mac,isap_enc", "crypto_aead/isapxv20/ref/isap.c", "crypto_aead/*/ref/Ascon-reference.c:Ascon_Permute_Nrounds", "crypto_aead/*/ref/KeccakP-400-reference.c:KeccakP400_Permute_Nrounds"]}
{"id": "C08", "title": "All implementations of a parameter set interoperate", "statement": "Every implementation of a parameter set produces the same ciphertext as the reference implementation on every input, and a ciphertext produced by one implementation is accepted by every other and decrypts to the original message.", "quantifier": "all inputs; all implementations: ref, opt_64, opt_32(_compact,_tiny,_stp), bi_32(_compact,_stp,_armv6,_armv6m,_armv6m_compact,_armv6m_stp,_armv7m), bi_8, opt_8(_tiny), avx_512, isapa128v20/{opt_64,opt_32,opt_32_armv67m}, isapk128*/{opt_64,opt_32_armv6m,opt_32_armv7m,avx512}; calls within the implementation's limits on alignment (C28), length (C32) and bytes readable behind ad (C09)", "why_tests_cant": "Some targets (ARM assembly, AVX-512) are not even compiled on the usual test machine, and equality must hold for all states and lengths.", "anchors": ["crypto_aead/isapa128av20/*/isap.c", "crypto_aead/isapa128av20/*/asconp.h", "crypto_aead/isapa128v20/*/isap.c", "crypto_aead/isapk128*/*/isap.c", "crypto_aead/isapk128*/opt_64/KeccakP-400-64.macros"]}
{"id": "C09", "title": "Valid calls stay inside the caller's buffers", "statement": "With buffers of exactly the documented sizes (k and npub 16 bytes, m mlen bytes, ad adlen bytes, c mlen+16 bytes, an 8-byte length cell), encrypt and decrypt never read or write outside them and never violate an internal assertion.", "quantifier": "all lengths and all contents, all implementations", "why_tests_cant": "An over-read of a few bytes happens only for particular lengths and normally goes unnoticed without a sanitizer at exactly that length.", "anchors": ["crypto_aead/*/*/crypto_aead.c:crypto_aead_encrypt", "crypto_aead/*/*/crypto_aead.c:crypto_aead_decrypt", "crypto_aead/isapk128av20/opt_64/isap.c:ABSORB_MAC", "crypto_aead/isapk128v20/opt_64/isap.c:ABSORB_MAC"]}
{"id": "C10", "title": "Calls write only their outputs", "statement": "crypto_aead_encrypt changes only c[0..mlen+16) and *clen; crypto_aead_decrypt changes only m[0..clen-16) and *mlen; key, nonce, AD and all other memory keep their contents.", "quantifier": "all inputs, all initial memory contents, all implementations; calls within the implementation's limits on alignment (C28), length (C32) and bytes readable behind ad (C09)", "why_tests_cant": "Quantifies over every other byte of memory.", "anchors": ["crypto_aead/*/*/crypto_aead.c:crypto_aead_encrypt", "crypto_aead/*/*/crypto_aead.c:crypto_aead_decrypt"]}
{"id": "C11", "title": "Empty inputs need no buffer", "statement": "With adlen = 0 the ad pointer may be null/invalid, and with mlen = 0 the m pointer may be null/invalid: they are never dereferenced and the call behaves as for the empty string.", "quantifier": "all keys, nonces, other inputs, any invalid pointer value", "why_tests_cant": "A stray dereference of a zero-length buffer usually does not crash in tests because a valid pointer is passed.", "anchors": ["crypto_aead/*/*/crypto_aead.c:crypto_aead_encrypt", "crypto_aead/*/*/crypto_aead.c:crypto_aead_decrypt"]}
{"id": "C12", "title": "In-place operation works", "statement": "Encrypting with c equal to m, and decrypting with m equal to c, gives the same ciphertext, plaintext and return value as with separate buffers. The same holds if the output begins before the input in the same array and overlaps it (the data moves down).", "quantifier": "all inputs, all implementations; calls within the implementation's limits on alignment (C28), length (C32) and bytes readable behind ad (C09)", "why_tests_cant": "Block-wise or fused implementations could read input already overwritten only for particular lengths.", "anchors": ["crypto_aead/isapa128av20/*/isap.c:isap_enc", "crypto_aead/isapa128av20/avx_512/isap.c:isap_mac_enc"]}
{"id": "C13", "title": "nsec is ignored", "statement": "The nsec argument, whatever its value (including null or dangling), never influences the result or the memory effects of encrypt or decrypt, and is never dereferenced.", "quantifier": "all pointer values and memory contents; calls within the implementation's limits on alignment (C28), length (C32) and bytes readable behind ad (C09)", "why_tests_cant": "Independence of an argument cannot be established by sampling.", "anchors": ["crypto_aead/*/*/crypto_aead.c:crypto_aead_encrypt", "crypto_aead/*/*/crypto_aead.c:crypto_aead_decrypt"]}
{"id": "C14", "title": "Truncated ciphertexts are rejected safely", "statement": "crypto_aead_decrypt called with clen < 16 returns -1 without touching memory outside its buffers.", "quantifier": "all clen in 0..15, all implementations", "why_tests_cant": "The KAT driver never calls decrypt with clen < 16, and the failing behaviour is undefined.", "anchors": ["crypto_aead/*/*/crypto_aead.c:crypto_aead_encrypt", "crypto_aead/*/*/crypto_aead.c:crypto_aead_decrypt"]}
{"id": "C15", "title": "Calls are history independent", "statement": "The result of a call depends only on its arguments and the memory it is given: after any finite sequence of earlier encrypt, decrypt (successful or not) or hash calls, a call returns the same value and produces the same output bytes as a first call. This includes the stp variants, which keep data in global variables.", "quantifier": "all finite call histories, all inputs; calls within the implementation's limits on alignment (C28), length (C32) and bytes readable behind ad (C09)", "why_tests_cant": "Histories are unbounded.", "anchors": ["crypto_aead/isapa128av20/*_stp/isap.c:s0,s1,pvp", "crypto_aead/isapa128av20/*_stp/crypto_aead.c"]}
{"id": "C16", "title": "Concurrent calls do not disturb each other", "statement": "When two threads call decrypt concurrently on disjoint buffers, each call returns what it would return alone, for every interleaving.", "quantifier": "all interleavings of the two calls' accesses to shared memory, all inputs; calls within the implementation's limits on alignment (C28), length (C32) and bytes readable behind ad (C09)", "why_tests_cant": "Interleavings cannot be enumerated or even controlled by the test suite.", "anchors": ["crypto_aead/isapa128av20/*_stp/isap.c:s0,s1,pvp", "crypto_aead/isapa128av20/*_stp/crypto_aead.c"]}
{"id": "C17", "title": "Tag check of the stp variants", "statement": "The stp variants of decrypt accept every honest ciphertext; they accept a received tag T* for computed tag T exactly when the first 128 bits of the 7-round permutation of (T*, S) and of (T, S) agree; hence they return -1 only for wrong tags. (Whether a wrong tag can be accepted depends on collisions of the truncated permutation.)", "quantifier": "all inputs, all tags; calls within the implementation's limits on alignment (C28), length (C32) and bytes readable behind ad (C09)", "why_tests_cant": "The set of accepted tags is a subset of 2^128 values that testing cannot explore.", "anchors": ["crypto_aead/isapa128av20/opt_32_stp/crypto_aead.c", "crypto_aead/isapa128av20/bi_32_stp/isap.c:pvp", "crypto_aead/isapa128av20/bi_32_armv6m_stp/asconp.h:PROUNDS"]}
{"id": "C18", "title": "Encryption is a stream cipher keyed by (k, npub)", "statement": "The ciphertext body is the message XORed byte by byte with a keystream that depends only on key and nonce; it does not depend on the AD, on the message, or on its length.", "quantifier": "all keys, nonces, AD and messages; calls within the implementation's limits on alignment (C28), length (C32) and bytes readable behind ad (C09)", "why_tests_cant": "A relational statement over pairs of executions.", "anchors": ["crypto_aead/*/*/isap.c:isap_enc"]}
{"id": "C19", "title": "Prefix property", "statement": "The ciphertext body of a prefix of a message (same key and nonce) is the prefix of the ciphertext body of the message.", "quantifier": "all messages and all their prefixes; calls within the implementation's limits on alignment (C28), length (C32) and bytes readable behind ad (C09)", "why_tests_cant": "Relational and over all lengths.", "anchors": ["crypto_aead/*/*/isap.c:isap_enc"]}
{"id": "C20", "title": "Encryption is injective", "statement": "Under one key, nonce and AD, different messages give different ciphertexts; encryption and decryption of the body are mutually inverse.", "quantifier": "all pairs of messages; calls within the implementation's limits on alignment (C28), length (C32) and bytes readable behind ad (C09)", "why_tests_cant": "Quantifies over pairs of messages.", "anchors": ["crypto_aead/*/*/isap.c:isap_enc"]}
{"id": "C21", "title": "Control flow and memory addresses are secret independent", "statement": "The sequence of memory addresses accessed and of branch decisions taken by encrypt depends only on the pointers and lengths, not on the contents of key, nonce, message or AD; for decrypt it depends additionally only on the accept/reject decision.", "quantifier": "all pairs of runs with the same pointers and lengths; calls within the implementation's limits on alignment (C28), length (C32) and bytes readable behind ad (C09)", "why_tests_cant": "A two-run (hyper-)property; timing tests can only sample it statistically.", "anchors": ["crypto_aead/*/*/crypto_aead.c:crypto_aead_encrypt", "crypto_aead/*/*/crypto_aead.c:crypto_aead_decrypt", "crypto_aead/*/*/isap.c"]}
{"id": "C22", "title": "The Ascon permutation is a bijection in every implementation", "statement": "For every supported number of rounds, the Ascon permutation computed by each implementation is a bijection on the 320-bit state, and equals the specification built from the 5-bit S-box table and the linear layer.", "quantifier": "all 2^320 states, all round counts 0..12", "why_tests_cant": "2^320 states.", "anchors": ["crypto_aead/isapa128av20/ref/Ascon-reference.c:Ascon_Permute_Nrounds", "crypto_aead/isapa128av20/*/asconp.h:ROUND"]}
{"id": "C23", "title": "Keccak-p[400] is a bijection in every implementation", "statement": "For every number of rounds 0..20 the Keccak-p[400] permutation computed by the reference is a bijection on the 400-bit state and equals the specification (theta, rho, pi, chi, iota); the optimised code computes the same permutation.", "quantifier": "all 2^400 states, all round counts", "why_tests_cant": "2^400 states.", "anchors": ["crypto_aead/isapk128av20/ref/KeccakP-400-reference.c", "crypto_aead/isapk128av20/opt_64/KeccakP-400-64.macros"]}
{"id": "C24", "title": "The authenticated input is encoded injectively", "statement": "The sequence of rate blocks absorbed by the MAC, together with the position of the domain separation bit, determines (npub, ad, c) uniquely: no two different (npub, ad, c) are authenticated as the same sequence, in particular moving bytes between ad and c changes it.", "quantifier": "all pairs of (npub, ad, c)", "why_tests_cant": "Injectivity over unbounded strings.", "anchors": ["crypto_aead/*/*/isap.c:isap_mac"]}
{"id": "C25", "title": "crypto_hash computes Ascon-Hash", "statement": "crypto_hash returns 0 and stores in out the 32-byte Ascon-Hash of the input for every input length, for every implementation in crypto_aead_hash.", "quantifier": "all messages of all lengths, all crypto_aead_hash implementations", "why_tests_cant": "KATs cover lengths 0..1024 of one byte pattern.", "anchors": ["crypto_aead_hash/isapa128av20/*/isap.c:crypto_hash"]}
{"id": "C26", "title": "crypto_hash is memory safe and writes only its output", "statement": "With an input buffer of exactly inlen bytes (null allowed when inlen = 0) and a 32-byte output, crypto_hash reads nothing else, writes exactly out[0..32), and works when out overlaps the input.", "quantifier": "all lengths, contents and placements", "why_tests_cant": "Quantifies over all memory.", "anchors": ["crypto_aead_hash/isapa128av20/*/isap.c:crypto_hash"]}
{"id": "C27", "title": "Enabling the hash does not change the AEAD", "statement": "The AEAD built from crypto_aead_hash computes exactly the same function as the AEAD built from crypto_aead.", "quantifier": "all inputs; calls within the implementation's limits on alignment (C28), length (C32) and bytes readable behind ad (C09)", "why_tests_cant": "Equality of two functions on an infinite domain.", "anchors": ["crypto_aead_hash/isapa128av20/*/config.h", "crypto_aead_hash/isapa128av20/opt_32_compact/asconp.h"]}
{"id": "C28", "title": "No alignment requirement on the buffers", "statement": "The functions behave correctly for every alignment of k, npub, m, ad, c.", "quantifier": "all pointer alignments, all inputs", "why_tests_cant": "On the usual x86 test machine misaligned 64-bit accesses silently work, although they are undefined behaviour in C and fault on some targets.", "anchors": ["crypto_aead/*/*/isap.c: *(lane_t *) and (u64 *) casts"]}
{"id": "C29", "title": "Every way of coding the round loop runs the same rounds", "statement": "Unrolled, fall-through-switch, table-driven and do-while coded permutations run exactly the last n rounds of the 12-round (Ascon) or 20-round (Keccak) permutation with the right constants, for every n the code uses, and terminate.", "quantifier": "all states, all round counts used", "why_tests_cant": "All states.", "anchors": ["crypto_aead/isapa128av20/opt_32_tiny/asconp.h:PROUNDS", "crypto_aead/isapa128av20/bi_32_compact/asconp.h:PROUNDS", "crypto_aead/isapa128av20/opt_8_tiny/asconp.h:PROUNDS", "crypto_aead/isapa128v20/opt_32/asconp.h:PX"]}
{"id": "C30", "title": "Alternative state representations are lossless", "statement": "The bit-interleaved (32-bit and 8-bit) representations and the endianness conversions are bijections: converting to the representation and back gives the original lane, and XOR and rotation of lanes correspond to the coded operations on the representation.", "quantifier": "all 2^64 lanes", "why_tests_cant": "2^64 values per lane.", "anchors": ["crypto_aead/isapa128av20/bi_32/asconp.h:to_bit_interleaving,from_bit_interleaving,ROR", "crypto_aead/isapa128av20/bi_8/asconp.h:interleave8,ROR", "crypto_aead/isapa128v20/opt_64/isap.c:U64BIG"]}
{"id": "C31", "title": "Different purposes never share a permutation input", "statement": "The initial sponge states used for authentication, for deriving the MAC key, for deriving the encryption key (of every parameter set) and for hashing are pairwise different for all keys and nonces, and stay different after the initial permutation whenever both use the same number of rounds.", "quantifier": "all keys and nonces, all pairs of purposes and of parameter sets with the same permutation", "why_tests_cant": "All pairs of 128-bit keys and nonces.", "anchors": ["crypto_aead/*/*/isap.c:ISAP_IV_A,ISAP_IV_KA,ISAP_IV_KE,ASCON_HASH_IV"]}
{"id": "C32", "title": "Lengths are honoured over the whole 64-bit range", "statement": "Every byte of ad, m and c up to the 64-bit length passed by the caller is processed: no implementation truncates a length or an offset to fewer bits, whatever the size of the C types on the platform.", "quantifier": "all lengths below 2^64-16, all implementations, both sizes of the type unsigned long on 64-bit platforms", "why_tests_cant": "Buffers of 4 GiB and more are not used in the tests.", "anchors": ["crypto_aead/isapk128av20/opt_32_armv7m/isap.c:unsigned long adlen", "crypto_aead/isapa128av20/avx_512/isap.c:u32", "crypto_aead/isapa128v20/opt_64/isap.c:ABSORB_MAC"]}
{"id": "C33", "title": "Fused encrypt-and-authenticate equals encrypt then authenticate", "statement": "The AVX-512 ISAP-A-128a encryption, which interleaves keystream generation with absorption of the ciphertext, yields for every length the same body and tag as encrypting first and authenticating afterwards.", "quantifier": "all keys, nonces, AD, all message lengths below 2^63; calls within the implementation's limits on alignment (C28), length (C32) and bytes readable behind ad (C09)", "why_tests_cant": "The pipelined loop has many length classes (mod 16, mod 8) and is only compiled on AVX-512 machines.", "anchors": ["crypto_aead/isapa128av20/avx_512/isap.c:isap_mac_enc"]}
{"id": "C34", "title": "The long-term key is only used for re-keying one bit at a time", "statement": "Encrypt and decrypt depend on the key k only through the session keys derived by the re-keying function from (purpose, 128-bit input); in it, inputs sharing their first i bits share the intermediate state after i bits, so each key-dependent intermediate state is followed by at most two different states.", "quantifier": "all keys, all inputs; calls within the implementation's limits on alignment (C28), length (C32) and bytes readable behind ad (C09)", "why_tests_cant": "Independence statements over pairs of runs.", "anchors": ["crypto_aead/*/*/isap.c:isap_rk"]}
{"id": "C35", "title": "The known-answer generator and the demo write exactly the prescribed text", "statement": "Linked with any implementation, the AEAD test-vector generator and the demo run without undefined behaviour and return 0; with every implementation except bi_32_armv7m (defective, see C08) the file is, character for character, the one prescribed by ISAP v2.0 for all message and associated data lengths up to 32; if the file cannot be opened the generator returns -1. Two equal files imply equal ciphertexts on all their inputs. The generator's own decrypt-and-compare check is not enough: with bi_32_armv7m it returns 0 although the file is wrong.", "quantifier": "all implementations, all initial memory contents and placements of the arrays, all array sizes for the reference code", "why_tests_cant": "The generator is the test; whether it can go wrong for other memory contents or miss a wrong implementation is a statement about the test itself.", "anchors": ["tests/genkat_aead.c:generate_test_vectors", "tests/demo.c:generate_test_vectors", "crypto_aead/isapxv20/ref/genkat_aead.c:generate_test_vectors"]}
{"id": "C36", "title": "The hash known-answer generator writes exactly the prescribed text", "statement": "Linked with any implementation of crypto_hash, the generator runs without undefined behaviour and returns 0; with every implementation except bi_32_armv7m the file lists the Ascon-Hash digests of the messages of 0 to 1024 bytes; with bi_32_armv7m the file is wrong. Two equal files imply equal digests on all their inputs.", "quantifier": "all implementations of crypto_hash, all memory contents and placements, all sizes", "why_tests_cant": "See C35.", "anchors": ["tests/genkat_hash.c:generate_test_vectors"]}
{"id": "C37", "title": "Repeated calls into the same buffers give the same result", "statement": "Encrypting any number n >= 1 of times (or hashing) into the same output buffer, as the benchmarks do, has no undefined behaviour and leaves the same ciphertext (digest) as a single call; the program bulk returns 0.", "quantifier": "all n, all message and associated data lengths and contents; calls within the implementation's limits", "why_tests_cant": "Unbounded number of calls.", "anchors": ["tests/bulk.c:main", "tests/getcycles.c:measure"]}
{"id": "C38", "title": "Any number of threads making any calls", "statement": "Any number of threads, each making any finite sequence of encryptions, decryptions and hash computations with any implementations. If no thread may write what another one uses and at most one thread calls stp variants, then under every schedule every thread returns what it returns when run alone and leaves in its memory what it leaves alone, no thread meets undefined behaviour, there is no data race, and other memory is unchanged.", "quantifier": "all numbers of threads, all call sequences, all schedules of single accesses, all memory contents; valid calls within the implementation's limits", "why_tests_cant": "The number of schedules is unbounded.", "anchors": ["crypto_aead/isapa128av20/*/isap.c:crypto_aead_encrypt", "crypto_aead/isapa128av20/*/isap.c:crypto_aead_decrypt", "crypto_aead_hash/isapa128av20/*/isap.c:crypto_hash", "crypto_aead/isapa128av20/bi_32_stp/isap.c:s0"]}
{"id": "C39", "title": "crypto_hash has no secret-dependent branches or addresses", "statement": "The sequence of memory accesses (addresses, widths) and branches of crypto_hash, and whether it is defined, depend only on the pointers and the length, not on the message or any other memory contents.", "quantifier": "all implementations, all pairs of memory contents, all arguments, valid or not", "why_tests_cant": "A statement about pairs of executions for all inputs.", "anchors": ["crypto_aead_hash/isapa128av20/*/isap.c:crypto_hash"]}
{"id": "C40", "title": "The assembler routines for ARM return, compute and preserve what their C declarations promise", "statement": "Each routine of the ARMv6-M and ARMv7-M assembler files (KeccakP400_Initialize, AddByte, AddBytes, OverwriteBytes, OverwriteWithZeroes, ExtractBytes, ExtractAndAddBytes, Permute_Nrounds, Permute_20rounds, StaticInitialize), called according to the procedure call standard, returns to its caller without a fault; the state or the output then contains the specified bytes (for the permutations, Keccak-p[400] with the given number of rounds, 1 to 20); registers r4-r11 and the stack pointer have their old values; and no byte of memory outside the output and the routine's part of the stack has changed. The ARMv7-M permutation needs a processor that permits unaligned word loads.", "quantifier": "all machine states in which the arguments are valid, all byte counts below 2^32, all round numbers from 1 to 20, all addresses of state, data, stack and table", "why_tests_cant": "Needs every register and memory contents, every length and every placement of buffers and stack; a clobbered callee-saved register or a stray store shows up only in particular callers.", "anchors": ["crypto_aead/isapk128av20/opt_32_armv6m/KeccakP-400-armv6m-le-gcc.s", "crypto_aead/isapk128av20/opt_32_armv7m/KeccakP-400-armv7m-le-gcc.s", "crypto_aead/isapk128v20/opt_32_armv6m/KeccakP-400-armv6m-le-gcc.s", "crypto_aead/isapk128v20/opt_32_armv7m/KeccakP-400-armv7m-le-gcc.s"]}
{"id": "C41", "title": "Inline assembly is correct for every register assignment its constraints permit", "statement": "Each inline assembly block of the Ascon round (bi_32_armv6, bi_32_armv6m and its compact and stp versions, bi_32_armv7m, isapa128v20/opt_32_armv67m), with its operands in any registers or immediate values that its constraints permit and with any contents of the temporaries and other registers, assembles, computes the round, and changes no register that is not declared as an output. False of the bi_32_armv6m versions, where the constant C_o may share a register with a temporary; there it holds if C_o is an immediate value or in a register of its own.", "quantifier": "all register sets, all assignments of operands to registers permitted by the constraints, all register contents, all states and round constants", "why_tests_cant": "A test exercises the one assignment that one compiler version chose with one set of options.", "anchors": ["crypto_aead/isapa128av20/bi_32_armv6/asconp.h:ROUND", "crypto_aead/isapa128av20/bi_32_armv6m/asconp.h:ROUND", "crypto_aead/isapa128av20/bi_32_armv6m_compact/asconp.h:ROUND", "crypto_aead/isapa128av20/bi_32_armv6m_stp/asconp.h:ROUND", "crypto_aead/isapa128av20/bi_32_armv7m/asconp.h:ROUND", "crypto_aead/isapa128v20/opt_32_armv67m/asconp.h:ROUND"]}
{"id": "C42", "title": "Equal tags or digests for different inputs come only from collisions of the specified functions", "statement": "If a ciphertext produced or accepted by one implementation and a ciphertext accepted by another (or the same) implementation of the same parameter set have the same key and the same tag but differ in nonce, associated data or body, then the two inputs exhibit a collision: proper prefixes of what is absorbed, different from each other, after which the states agree beyond the rate; or two states reached by the absorption that differ only in the 16 bytes from which the session key of the tag is derived, with the same session key; or two different states that p_H maps to states with the same first 16 bytes. Likewise two calls of crypto_hash with different inputs store the same digest only if there is such an inner collision or two different final states from which the same 32 bytes are squeezed. The code adds no other way to confuse inputs. (Implementations that compute the specified functions, i.e. not bi_32_armv7m; the decrypting side is not a stp variant, which does not compare the tag itself, see C17.)", "quantifier": "all keys, nonces, associated data, ciphertexts and messages of all lengths, all implementations of a parameter set", "why_tests_cant": "The claim is about all pairs of inputs with equal tags, none of which can be found by testing.", "anchors": ["crypto_aead/isapa128av20/ref/isap.c:isap_mac", "crypto_aead/isapa128v20/ref/isap.c:isap_mac", "crypto_aead/isapk128av20/ref/isap.c:isap_mac", "crypto_aead/isapk128v20/ref/isap.c:isap_mac", "crypto_aead_hash/isapa128av20/*/isap.c:crypto_hash"]}
{"id": "C43", "title": "A call interrupted at any point leaves only old or final bytes, and can be repeated", "statement": "Let a valid call of crypto_aead_encrypt, crypto_aead_decrypt or crypto_hash be stopped after any number of steps. Then every byte of memory has either the value it had before the call or the one it has after the complete call, and bytes outside the output and the stored length are unchanged: no intermediate value is ever placed in a buffer of the caller. In encryption the tag comes last: as soon as one of its bytes has changed, the ciphertext and *clen are complete. In decryption no byte except those of *mlen changes at any point unless the ciphertext is accepted: unverified plaintext is not released even for a moment. If the outputs do not overlap the inputs, repeating a call after any number of interrupted attempts has the same effect as the uninterrupted call. For encryption in place this is not so: an interrupted attempt may have destroyed the message.", "quantifier": "all implementations, inputs, lengths, memories and all stopping points; for repetition all finite sequences of interrupted attempts", "why_tests_cant": "Tests look at memory when a call has returned; the number of points at which it can be stopped grows with the input.", "anchors": ["crypto_aead/*/*/crypto_aead.c:crypto_aead_encrypt", "crypto_aead/*/*/crypto_aead.c:crypto_aead_decrypt", "crypto_aead/*/*/isap.c:isap_enc", "crypto_aead/isapa128av20/avx_512/isap.c:isap_mac_enc", "crypto_aead_hash/isapa128av20/*/isap.c:crypto_hash"]}
{"id": "C44", "title": "Nothing about the key remains in static storage", "statement": "crypto_aead_encrypt, crypto_aead_decrypt and crypto_hash leave the global variables of the library as they were, whatever their arguments, except encryption and decryption of the stp variants. What these leave there is a function of the nonce, the associated data and the ciphertext without its tag only: a later reader of the process memory learns from it nothing about the key or the message that the ciphertext does not tell, and nothing about the received tag or whether it was accepted.", "quantifier": "all implementations, arguments, lengths, memories and previous contents of the global variables", "why_tests_cant": "Tests look at the outputs of calls, not at the library's own variables, and independence of the key is a statement about all keys.", "anchors": ["crypto_aead/isapa128av20/opt_32_stp/isap.c:s0", "crypto_aead/isapa128av20/bi_32_stp/isap.c:s1", "crypto_aead/isapa128av20/bi_32_armv6m_stp/isap.c:isap_mac", "crypto_aead/isapa128av20/bi_32_stp/isap.c:pvp"]}
{"id": "C45", "title": "Results do not depend on uninitialised memory", "statement": "Some local variables are declared without initialiser and passed on before all of their bytes are set. Whatever these bytes contain, a valid call of crypto_aead_encrypt or crypto_aead_decrypt returns the same value and leaves the same bytes in memory.", "quantifier": "all implementations, inputs, lengths, memories and all pairs of contents of the uninitialised local variables", "why_tests_cant": "In tests the stack has whatever contents the test program happens to leave there, often zeros, and the same in every run.", "anchors": ["crypto_aead/*/ref/isap.c:isap_enc", "crypto_aead/isapa128av20/*/isap.c:isap_enc", "crypto_aead/isapa128v20/opt_64/isap.c:isap_enc", "crypto_aead/isapa128av20/avx_512/isap.c:isap_mac_enc", "crypto_aead/isapk128av20/avx512/isap.c:isap_rk"]}
{"id": "C46", "title": "Results do not depend on the byte order of the platform", "statement": "crypto_aead_encrypt and crypto_aead_decrypt of an implementation written in portable C produce the same ciphertexts and tags, accept the same ciphertexts and report the same lengths on little-endian and big-endian platforms: those of the specification. Where this fails, the implementation at least decrypts what it has encrypted on the same platform. crypto_hash computes Ascon-Hash with either byte order.", "quantifier": "both byte orders, all inputs, lengths and memories", "why_tests_cant": "The known-answer tests run on the platform of the developer, which is little-endian; no compiler message tells that a cast or a union depends on the byte order.", "anchors": ["crypto_aead/isapa128av20/ref/Ascon-reference.c:load64", "crypto_aead/isapa128av20/ref/crypto_aead.c:crypto_aead_encrypt", "crypto_aead/isapa128v20/ref/Ascon-reference.c:store64", "crypto_aead/isapa128av20/opt_64/asconp.h:U64BIG", "crypto_aead/isapa128av20/opt_64/isap.c:isap_mac", "crypto_aead_hash/isapa128av20/opt_8/asconp.h:ROUND", "crypto_aead_hash/isapa128av20/opt_32/asconp.h:ROUND", "crypto_aead_hash/isapa128av20/opt_64/isap.c:crypto_hash", "crypto_aead/isapa128v20/opt_64/isap.c:ABSORB_MAC", "crypto_aead/isapa128v20/opt_32/isap.c:isap_mac", "crypto_aead/isapa128av20/bi_32/asconp.h:ROR", "crypto_aead/isapa128av20/bi_8/asconp.h:ROUND", "crypto_aead/isapk128av20/opt_64/isap.c:ABSORB_MAC"]}
{"id": "C47", "title": "Every call ends, after a number of steps linear in the lengths", "statement": "Every valid call of crypto_aead_encrypt, crypto_aead_decrypt and crypto_hash ends, after at most a constant plus a constant times (length of the associated data + length of the message, ciphertext or input) memory accesses and branches, whatever the key, the nonce and the data are and whether the tag is accepted or not. The constants do not depend on the implementation.", "quantifier": "all implementations, all valid calls, lengths and memories", "why_tests_cant": "A loop that does not end, or takes a quadratic number of steps, for some length or some data is not found by tests with a few lengths; in particular a decryption of data chosen by an attacker must not take longer than its length justifies.", "anchors": ["crypto_aead/*/*/crypto_aead.c:crypto_aead_encrypt", "crypto_aead/*/*/crypto_aead.c:crypto_aead_decrypt", "crypto_aead/*/*/isap.c:isap_mac", "crypto_aead/*/*/isap.c:isap_enc", "crypto_aead/isapa128av20/avx_512/isap.c:isap_mac_enc", "crypto_aead_hash/isapa128av20/*/isap.c:crypto_hash"]}
{"id": "C48", "title": "The mode code works with any permutation and only asks it what the specification prescribes", "statement": "If the permutation of an implementation is replaced by any function on states, crypto_aead_encrypt and crypto_aead_decrypt of the result compute ISAP over that function: same ciphertext, same tag, same tags accepted, same plaintext. In particular what a call does depends on the values of the permutation only at the inputs that the specification prescribes: as many as the lengths determine, with the prescribed numbers of rounds, and, in decryption, none for the keystream if the tag is rejected.", "quantifier": "all implementations but avx_512 of ISAP-A-128a, all functions in place of the permutation, all inputs, lengths and memories", "why_tests_cant": "Tests run the code with one permutation. That the security proof of the mode, which treats the permutation as a random function, applies to the code, means that the code behaves as the mode for all of them; and whether the result depends on the permutation at further inputs cannot be seen from test vectors.", "anchors": ["crypto_aead/*/ref/isap.c:isap_mac", "crypto_aead/*/ref/isap.c:isap_enc", "crypto_aead/*/ref/isap.c:isap_rk", "crypto_aead/isapa128av20/*/isap.c", "crypto_aead/isapa128v20/*/isap.c", "crypto_aead/isapk128av20/*/isap.c", "crypto_aead/isapk128v20/*/isap.c"]}
{"id": "C49", "title": "The integer arithmetic of the code is defined, whatever the size of int, and means what it seems to", "statement": "With the integer promotions and conversions of C no shift, product, subtraction or negation that the implementations evaluate overflows a signed type or shifts by too much, on platforms with an int of 16 bits (as on AVR, one of the processors the README names) or 32 bits and the usual sizes of long and size_t; the values assigned are those of the rotations, byte swaps, interleavings and bit selections meant.", "quantifier": "all implementations in C, all values of the operands that the code can pass, platforms AVR, ILP32, LLP64 and LP64", "why_tests_cant": "The tests are run on one platform, where int has 32 bits, and a compiler may give any meaning to an undefined expression only for some values or optimisation levels. Whether a byte shifted in int overflows depends on the value of the byte.", "anchors": ["crypto_aead/isapa128av20/bi_8/asconp.h:ROR8", "crypto_aead/isapa128av20/opt_8/asconp.h:XMUL", "crypto_aead/isapa128av20/opt_64/asconp.h:ROR", "crypto_aead/isapa128av20/bi_32/asconp.h:ROR32", "crypto_aead/isapa128av20/ref/Ascon-reference.c:load64", "crypto_aead/isapk128av20/ref/KeccakP-400-reference.c:ROL16", "crypto_aead/isapk128av20/opt_64/KeccakP-400-64.macros:ROL16", "crypto_aead/isapk128av20/opt_64/isap.c:isap_mac"]}
{"id": "C50", "title": "Buffers declared as arrays of characters are only accessed as such", "statement": "The API takes pointers to unsigned char. A caller who declares key, nonce, associated data, message and ciphertext as arrays of unsigned char relies on crypto_aead_encrypt and crypto_aead_decrypt accessing them in ways the effective-type (strict aliasing) rule of C permits for such objects: as characters, by memcpy, by vector loads and stores, or through a union that contains characters, and not through pointers to wider integer types, which a compiler may assume not to alias the caller's own accesses. True of the reference implementations, false of all others. crypto_hash accesses its output through uint64_t * in all optimized implementations. The same rule applies to the arrays of characters that the implementations declare themselves: tag[16] in crypto_aead_decrypt, and the arrays state, ke and state_mac. The Keccak reference and the word-oriented versions of isapa128v20, isapa128av20/avx_512 and ISAP-K opt_64 break it for these; the others access tag[16] only as characters, by memcpy, or (stp) through the union.", "quantifier": "all implementations, all valid calls (any memory contents, lengths and addresses), every access of the execution", "why_tests_cant": "A test shows one compiler's output; the rule concerns every access of every execution, and a violation may only become visible with another compiler, optimisation level or inlining decision.", "anchors": ["crypto_aead/isapa128av20/ref/isap.c: isap_rk, isap_mac, isap_enc", "crypto_aead/isapa128av20/opt_64/isap.c: isap_enc (*(uint64_t *)c = *(uint64_t *)m ^ t0.x)", "crypto_aead/isapa128v20/opt_64/isap.c: isap_rk, isap_mac, isap_enc", "crypto_aead/isapk128av20/opt_64/isap.c: ABSORB_MAC, isap_rk", "crypto_aead/isapk128av20/ref/KeccakP-400-reference.c: KeccakP400_Permute_Nrounds, KeccakP400OnWords (state passed as tKeccakLane *)", "crypto_aead/isapa128v20/opt_64/isap.c: isap_mac (u64 *)state, (u64 *)tag", "crypto_aead/isapa128v20/opt_32/isap.c: isap_rk (u32 *)out", "crypto_aead/isapk128av20/opt_64/isap.c: isap_mac (UINT16 *)tag"]}
{"id": "C51", "title": "Correct behaviour does not depend on where compiler and linker place the implementation's own arrays", "statement": "The arrays of bytes an implementation declares itself (the local array for the recomputed tag in crypto_aead_decrypt, the local arrays for the state and for derived keys in the functions it calls, and the constant tables of initial values) have no alignment requirement: compiler and linker may place them at any address. A caller relies on valid calls having a defined outcome, and the documented one, wherever that is. True of the code that accesses them by bytes; false on platforms that do not tolerate misaligned accesses of the implementations that access these arrays through pointers to wider words. Where the arrays happen to be aligned, results and memory are those of the other properties, except that the tag that would have been accepted remains in the memory of the function, also after a rejection, and likewise the derived key of the stream cipher and, in the reference code of ISAP-K and in two optimised versions of ISAP-A, the session key of the authentication.", "quantifier": "all implementations, all valid calls, all addresses of the local arrays and of the tables outside the caller's buffers, tolerant and strict platforms", "why_tests_cant": "The addresses are chosen by compiler and linker: a test sees the choice of one build, and a later build (another optimisation level, another variable in the frame, another link order) may choose a misaligned one.", "anchors": ["crypto_aead/isapa128v20/opt_64/crypto_aead.c: crypto_aead_decrypt (unsigned char tag[ISAP_TAG_SZ])", "crypto_aead/isapa128v20/opt_64/isap.c: isap_mac (tag64), ISAP_IV1", "crypto_aead/isapa128av20/bi_32_stp/crypto_aead.c: T, T_star", "crypto_aead/isapa128av20/bi_32_stp/isap.c: pvp", "crypto_aead/isapa128av20/opt_64/isap.c: ISAP_IV_A, ISAP_IV_KA, ISAP_IV_KE, ASCON_HASH_IV", "crypto_aead/isapa128v20/opt_64/isap.c: isap_mac, isap_enc (u8 state[ISAP_STATE_SZ])", "crypto_aead/isapa128v20/opt_32/isap.c: isap_enc (u8 ke[])", "crypto_aead/isapa128av20/avx_512/isap.c: isap_mac_enc (u8 state_mac[], state_enc[])", "crypto_aead/isapk128av20/ref/isap.c: isap_rk, isap_mac, isap_enc (unsigned char state[ISAP_STATE_SZ])", "crypto_aead/isapk128av20/ref/KeccakP-400-reference.c: KeccakP400_Permute_Nrounds"]}
{"id": "C52", "title": "Padding is unambiguous on platforms of either byte order", "statement": "On little-endian and on big-endian platforms, a tag that crypto_aead_encrypt has produced is accepted by crypto_aead_decrypt for another nonce, associated data or ciphertext only if this exhibits a collision of the sponge construction, of the re-keying function or of the truncated permutation; in particular nobody can append bytes to the associated data or to the ciphertext without the key. Likewise crypto_hash gives equal digests only because of such collisions. True of the reference code with the Ascon permutation and of opt_64, opt_32, opt_32_compact, opt_32_tiny, opt_8, opt_8_tiny of isapa128av20. False on big-endian platforms of opt_64, opt_32, opt_32_armv67m of isapa128v20 (7 zero bytes can be appended) and of bi_32, bi_32_compact of isapa128av20 (5 zero bytes, also for crypto_hash). False on big-endian platforms of opt_64 of isapk128av20 and isapk128v20: bytes 16 and 17 of every full block of 18 bytes of the associated data and of the ciphertext can be changed.", "quantifier": "both byte orders, all keys, nonces, associated data, messages and memories", "why_tests_cant": "Known-answer tests compare outputs for given inputs on one platform; they never ask whether another input has the same tag, and round trips succeed on the affected platforms.", "anchors": ["crypto_aead/isapa128v20/opt_64/isap.c:ABSORB_MAC", "crypto_aead/isapa128v20/opt_32/isap.c:isap_mac", "crypto_aead/isapa128v20/opt_32_armv67m/isap.c:isap_mac", "crypto_aead/isapa128av20/bi_32/isap.c:ABSORB_LANES", "crypto_aead/isapa128av20/bi_32_compact/isap.c:ABSORB_LANES", "crypto_aead_hash/isapa128av20/bi_32/isap.c:crypto_hash", "crypto_aead/isapa128av20/opt_64/isap.c:ABSORB_LANES", "crypto_aead/isapk128av20/opt_64/isap.c:ABSORB_MAC", "crypto_aead/isapk128v20/opt_64/isap.c:ABSORB_MAC"]}
{"id": "C53", "title": "No implementation leaves its own arrays and tables or reads an element before writing it", "statement": "Whatever arguments crypto_aead_encrypt, crypto_aead_decrypt and crypto_hash get, valid or not, and whatever memory contains, every index into a local array or a table of constants is within its declared bounds, and every element of a local array that is read has been written before in the same call. (Messages of 2^63 bytes and more are excluded for isapa128av20/avx_512, which keeps the length in a signed variable. isapk128av20/avx512 reads whole vector registers, of which 14 bytes are never initialised; their contents do not matter for any result.)", "quantifier": "all implementations, all arguments including invalid pointers, all memories and platforms", "why_tests_cant": "Out-of-range indices into local arrays usually hit neighbouring variables and go unnoticed, and whether one occurs depends on lengths modulo the rate, on the number of rounds and on table terminators; a test with a sanitizer sees only the executions it runs.", "anchors": ["crypto_aead/isapa128av20/ref/isap.c:isap_mac (state, y, ka_star)", "crypto_aead/isapa128av20/ref/Ascon-reference.c:RoundConstants", "crypto_aead/isapk128av20/ref/KeccakP-400-reference.c:KeccakRoundConstants, KeccakRhoOffsets", "crypto_aead/isapa128v20/opt_64/isap.c:lane8", "crypto_aead/isapa128v20/opt_32/isap.c:tmp0_bytes, ke", "crypto_aead/isapa128av20/avx_512/isap.c:isap_mac_enc (lane8)", "crypto_aead/isapk128av20/opt_64/isap.c:ABSORB_MAC (S.l8), isap_enc (state)", "crypto_aead/isapk128av20/opt_32_armv7m/KeccakP-400-armv7m-le-gcc.s:KeccakP400_Permute_RoundConstants"]}
