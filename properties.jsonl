{"id": "C01", "title": "Signed big-integer arithmetic never silently wraps", "statement": "Any expression built from the secret signed integers with +, -, unary -, * (same width and widening), sums and widening conversions either reports failure (None / panic) or denotes exactly the mathematical integer obtained by evaluating the same expression over Z.", "quantifier": "all word widths, all operand values and declared bounds produced by a bound-respecting constructor, all expression trees", "why_tests_cant": "The proofs' soundness depends on no operand combination wrapping modulo 2^BITS; tests sample a few 1024/2048-bit operands.", "anchors": ["src/uint/secret_signed.rs: SecretSigned::{checked_add,checked_sub,checked_mul,mul_wide,mul_wide_public,to_wide,neg}, impl Add/Sub/Mul/Neg/Sum"]}
{"id": "C02", "title": "Declared bit bound of a signed integer is always truthful", "statement": "Every signed integer handed out by the constructors and operations has |value| < 2^bound and bound < BITS, where bound is the bit bound it reports.", "quantifier": "all constructors, all operations, all inputs and declared bounds", "why_tests_cant": "The bound is only checked in some constructors; a violation needs an input value wider than the declared bound, which random tests never supply.", "anchors": ["src/uint/secret_signed.rs: SecretSigned::{new_positive,new_from_unsigned,new_from_abs,new_modulo,ensure_exponent_range}", "src/uint/public_signed.rs: PublicSigned::{new_from_abs,new_positive,new_from_unsigned}"]}
{"id": "C03", "title": "The range check accepts exactly the paper's interval", "statement": "is_in_exponent_range(exp) returns true exactly for integers in [-2^(exp-1)+1, 2^(exp-1)], for public and secret signed integers alike, including both end points and zero.", "quantifier": "all widths, all exponents 1 <= exp < BITS, all values", "why_tests_cant": "The interval is asymmetric, so the two end points matter and they are hit with probability 2^-exp.", "anchors": ["src/uint/public_signed.rs: PublicSigned::is_in_exponent_range", "src/uint/secret_signed.rs: SecretSigned::{is_in_exponent_range,assert_exponent_range,ensure_exponent_range}"]}
{"id": "C04", "title": "Mask sampling covers exactly the requested interval, uniformly", "statement": "Sampling in the exponent range (plain, wide, and scaled) maps the uniform draw bijectively onto the interval [-2^(exp-1)+1, 2^(exp-1)] (times the scale for the scaled variant, i.e. [-(s*2^(exp-1)-1), s*2^(exp-1)]), and the result passes the matching range check.", "quantifier": "all widths, exponents, scales and raw draws", "why_tests_cant": "Statistical hiding of every range proof depends on uniformity over the whole interval; a one-off shift is invisible to sampling tests.", "anchors": ["src/uint/secret_signed.rs: SecretSigned::{random_in_exponent_range,random_in_exponent_range_scaled}", "src/uint/public_signed.rs: PublicSigned::from_xof_reader_in_exponent_range"]}
{"id": "C05", "title": "Signed integer wire encoding round-trips and rejects out-of-bound input", "statement": "Deserializing the serialized form of a public signed integer gives back the same value and bound; deserializing arbitrary bytes either fails or yields an integer with |value| < 2^bound and bound < BITS.", "quantifier": "all values, bounds and widths (multiples of 8 bits); all byte strings", "why_tests_cant": "Attackers choose the bytes; round-trip tests only cover honest encodings.", "anchors": ["src/uint/public_signed.rs: PackedSigned, TryFrom<PackedSigned>, From<PublicSigned>"]}
{"id": "C06", "title": "Challenge bit-vector wire encoding round-trips and never panics on foreign bytes", "statement": "Unpacking a packed bit vector returns the same bits in the same order, for any length including lengths that are not a multiple of eight; unpacking arbitrary packed data either fails or returns exactly the announced number of bits.", "quantifier": "all bit vectors of all lengths, all packed inputs", "why_tests_cant": "Needs every length modulo 8 and hostile headers.", "anchors": ["src/tools/bitvec.rs: PackedBitVec, BitVec"]}
{"id": "C07", "title": "Conversions between scalars and signed integers preserve the value modulo the group order", "statement": "Converting a scalar to a signed integer and back is the identity; the centred conversion returns the unique representative with |v| <= (q-1)/2, which always passes the +-2^L range assertion of the provers; the integer-to-scalar map is a ring homomorphism, also for negative and wide integers.", "quantifier": "all scalars, all signed integers of all widths, all odd group orders", "why_tests_cant": "The negative half and the boundary (q-1)/2 are single points among 2^256.", "anchors": ["src/params/conversion.rs", "src/uint/secret_signed.rs: SecretSigned::new_modulo"]}
{"id": "C08", "title": "Transcript hashing is unambiguous", "statement": "Two different sequences of byte strings chained into the Fiat-Shamir/commitment hash never produce the same hash input, whatever their lengths.", "quantifier": "all finite sequences of byte strings shorter than 2^64 bytes", "why_tests_cant": "Ambiguity (e.g. moving a byte across a field boundary) needs adversarial inputs.", "anchors": ["src/tools/hashing.rs: Chain::chain_bytes, FofHasher, XofHasher"]}
{"id": "C09", "title": "Any threshold-sized set of shares reconstructs the secret", "statement": "Splitting a secret with threshold t among n holders and joining the shares of any subset of at least t holders returns the secret; joining public shares returns the public key of the secret.", "quantifier": "all secrets, all polynomials, all t <= n smaller than the group order, all subsets of size >= t, any share ids pairwise distinct as scalars", "why_tests_cant": "The number of subsets is exponential; tests pick a couple.", "anchors": ["src/tools/sss.rs: shamir_split, shamir_join_scalars, shamir_join_points, interpolation_coeff, evaluate_polynomial"]}
{"id": "C10", "title": "Fewer than threshold shares are compatible with every secret", "statement": "For any t-1 share ids, any share values and any candidate secret there is a sharing polynomial the library could have drawn that yields those shares and that secret. Distributions: whoever sees fewer than t shares tells two secrets apart with advantage at most (t-1)/(q-1).", "quantifier": "all fields, thresholds, sets of t-1 distinct non-zero ids, share values and candidate secrets", "why_tests_cant": "Secrecy is a statement about all possible secrets; no test can observe it.", "anchors": ["src/tools/sss.rs: Polynomial::random, shamir_split"]}
{"id": "C11", "title": "Additive secret split sums back to the secret", "statement": "Splitting a scalar into n parts yields exactly n parts whose sum is the scalar (n >= 1). Whoever sees all parts but one tells two secrets apart with advantage at most 1/(q-1).", "quantifier": "all scalars, all n >= 1, all draws", "why_tests_cant": "Must hold for each n and every draw.", "anchors": ["src/curve/arithmetic.rs: Scalar secret_split"]}
{"id": "C12", "title": "Centralized key generation yields consistent full shares", "statement": "KeyShare::new_centralized gives each party a share owned by it, all parties hold the same public map with exactly the given ids, every secret share matches its public share, and the sum of the secret shares is the signing key, so every share reports the signing key's verifying key.", "quantifier": "all non-empty party sets, all signing keys, all randomness", "why_tests_cant": "Holds for every party count and randomness.", "anchors": ["src/entities/full.rs: KeyShare::new_centralized, verifying_key"]}
{"id": "C13", "title": "Threshold shares convert to full shares that sign for the same key", "statement": "For shares from ThresholdKeyShare::new_centralized and any set of t or more of the holders, converting each holder's share to a full share over that set gives shares that pairwise agree on the public map, match their public shares, and sum to the signing key.", "quantifier": "all t <= n, all holder subsets of size >= t, all signing keys and polynomials", "why_tests_cant": "Exponentially many subsets.", "anchors": ["src/entities/threshold.rs: ThresholdKeyShare::{new_centralized,to_key_share,verifying_key}"]}
{"id": "C14", "title": "Full-to-threshold conversion keeps the verifying key", "statement": "Converting a full key share to a t-of-t threshold share and back (over all holders) returns the original secret and public shares; the verifying key is unchanged.", "quantifier": "all full key shares with any number of parties below the group order", "why_tests_cant": "Interpolation coefficients depend on the whole party set.", "anchors": ["src/entities/threshold.rs: ThresholdKeyShare::{from_key_share,to_key_share}"]}
{"id": "C15", "title": "Refreshing keeps the key, over any history of refreshes", "statement": "Applying any sequence of share changes whose public parts sum to the identity keeps the verifying key, keeps every party's secret matching its public share, and keeps the holder set and owner.", "quantifier": "all key shares, all finite sequences of refresh results", "why_tests_cant": "Histories are unbounded.", "anchors": ["src/entities/full.rs: KeyShare::update, KeyShareChange"]}
{"id": "C16", "title": "Share update rejects mismatched changes", "statement": "Updating a key share with a change for a different owner, or over a different set of holders, fails with an error and never panics; a matching change succeeds, keeps owner and holders, and moves every share by exactly its change.", "quantifier": "all key shares and changes", "why_tests_cant": "Mismatch shapes are many (missing, extra, swapped ids).", "anchors": ["src/entities/full.rs: KeyShare::update"]}
{"id": "C17", "title": "BIP-32 derivation commutes with sharing", "statement": "Deriving a non-hardened child from a threshold share and then converting/joining gives the same key as deriving the child of the group verifying key; all holders stay consistent; the derived secret is the master secret plus the tweak sum.", "quantifier": "all derivation paths, thresholds, subsets, keys; arbitrary tweak function", "why_tests_cant": "Any path length, any subset.", "anchors": ["src/entities/threshold.rs: derive_bip32", "src/curve/bip32.rs: derive_tweaks, apply_tweaks_public, apply_tweaks_private"]}
{"id": "C18", "title": "Auxiliary info subsetting keeps exactly the requested parties", "statement": "Taking a subset of the auxiliary info returns exactly the entries of the requested parties, unchanged, and reports an error precisely when a requested party (or the owner) is missing.", "quantifier": "all aux infos and id sets", "why_tests_cant": "All subset shapes.", "anchors": ["src/entities/full.rs: AuxInfo::subset, PublicAuxInfos::subset"]}
{"id": "C19", "title": "Paillier decryption inverts encryption", "statement": "Decrypting a ciphertext of m gives the representative of m modulo N in (-N/2, N/2]; hence exactly m whenever |m| < N/2, for every invertible randomizer.", "quantifier": "all key pairs (distinct odd primes with gcd(N, phi)=1), all plaintexts, all randomizers", "why_tests_cant": "Key space and plaintext space are astronomically large, including the sign boundary.", "anchors": ["src/paillier/encryption.rs: Ciphertext::{new_with_randomizer,new_public_with_randomizer,decrypt}", "src/paillier/keys.rs"]}
{"id": "C20", "title": "Paillier homomorphisms are exact", "statement": "Adding ciphertexts, negating, and multiplying by a plaintext integer (positive or negative, secret or public) decrypts to the sum, negation and product of plaintexts modulo N (centred); exactly when no wrap-around is possible.", "quantifier": "all key pairs, ciphertexts and multipliers", "why_tests_cant": "Composite expressions over all plaintexts.", "anchors": ["src/paillier/encryption.rs: homomorphic_add, homomorphic_mul, homomorphic_neg, Add/Sub/Mul/Neg impls"]}
{"id": "C21", "title": "Randomizer recovery is exact", "statement": "The secret key holder recovers from any well-formed ciphertext exactly the randomizer it was made with, and re-encrypting the decrypted plaintext with it reproduces the ciphertext.", "quantifier": "all key pairs, plaintexts, randomizers in Z_N^*", "why_tests_cant": "Error-attribution proofs depend on it for every ciphertext.", "anchors": ["src/paillier/encryption.rs: Ciphertext::derive_randomizer"]}
{"id": "C22", "title": "CRT split/join and modular square roots are correct", "statement": "Splitting a residue modulo the two primes and joining is the identity; the square root routine returns a value exactly when the input is a square modulo both primes, and what it returns squares to the input and is itself a square.", "quantifier": "all Blum prime pairs and residues", "why_tests_cant": "Every residue class.", "anchors": ["src/paillier/keys.rs: rns_split, rns_sqrt, rns_join, SecretKeyPaillier"]}
{"id": "C23", "title": "Non-square sampling returns a residue with Jacobi symbol -1", "statement": "The sampled non-residue is a unit that is a square modulo exactly one of the two primes. It is uniform among the residues with Jacobi symbol -1.", "quantifier": "all Blum prime pairs and draws", "why_tests_cant": "Every draw.", "anchors": ["src/paillier/keys.rs: random_nonsquare_residue"]}
{"id": "C24", "title": "Ring-Pedersen commitments are homomorphic and survive the wire", "statement": "commit(a,r)*commit(b,s) = commit(a+b,r+s), commit(a,r)^e = commit(e*a,e*r), also for negative exponents; converting to wire form and back is the identity; generated parameters satisfy s = t^lambda with both units.", "quantifier": "all moduli, unit bases, integer openings", "why_tests_cant": "All openings including negative.", "anchors": ["src/paillier/ring_pedersen.rs"]}
{"id": "C25", "title": "Schnorr proofs: complete, and two answers reveal the secret", "statement": "An honestly made Schnorr proof verifies; verification accepts exactly when the recomputed challenge matches and the group equation holds; two accepted answers for the same commitment and different challenges determine the discrete logarithm.", "quantifier": "all secrets, commitments, aux data, challenge functions", "why_tests_cant": "For all keys and hash outputs.", "anchors": ["src/zk/sch.rs"]}
{"id": "C26", "title": "Dlog-with-El-Gamal proofs: complete and specially sound", "statement": "An honest proof verifies; two accepted transcripts with the same commitment and different challenges determine (y, lambda) with L = lambda g, M = y g + lambda X, Y = y h.", "quantifier": "all inputs and challenge functions", "why_tests_cant": "As above.", "anchors": ["src/zk/elog.rs"]}
{"id": "C27", "title": "Range encryption proof: accepts exactly the in-range honest proofs", "statement": "An honest enc-elg proof verifies if and only if its masked response lies in the required interval, which is guaranteed whenever the mask is in the inner interval; the verifier never accepts a response outside +-2^(L+EPS).", "quantifier": "all parameters satisfying self-consistency, keys, plaintexts in +-2^L, masks, challenges", "why_tests_cant": "All masks and challenges.", "anchors": ["src/zk/enc_elg.rs"]}
{"id": "C28", "title": "Affine-operation proof (aff-g): accepts exactly the in-range honest proofs", "statement": "An honest aff-g proof (with D = C*x (+) enc(-y)) verifies iff both masked responses lie in their intervals, guaranteed for inner-interval masks; responses outside are always rejected.", "quantifier": "all parameters, keys, secrets in range, masks, challenges", "why_tests_cant": "All masks and challenges; sign conventions are easy to get wrong.", "anchors": ["src/zk/aff_g.rs"]}
{"id": "C29", "title": "Affine-operation proof for error attribution (aff-g*): same, for every repetition", "statement": "An honest aff-g* proof verifies iff all masked responses lie in their intervals; a proof with any wrong number of commitments or responses is rejected.", "quantifier": "all parameters, keys, secrets, masks, challenge bit strings", "why_tests_cant": "2^SECURITY challenge strings.", "anchors": ["src/zk/aff_g_star.rs"]}
{"id": "C30", "title": "Decryption proof (dec): same, for every repetition", "statement": "An honest dec proof verifies iff all masked responses lie in their intervals; wrong numbers of commitments or responses are rejected; the interval width matches ceil(log2(n)) for every party count n >= 2.", "quantifier": "all parameters, keys, secrets, masks, challenge bit strings, party counts", "why_tests_cant": "As above.", "anchors": ["src/zk/dec.rs"]}
{"id": "C31", "title": "Small-factor proof (fac): accepts exactly the in-range honest proofs", "statement": "An honest proof for N = p*q verifies iff both masked responses lie in their interval.", "quantifier": "all primes of the right size, masks, challenges of both signs", "why_tests_cant": "Negative challenges and masks.", "anchors": ["src/zk/fac.rs"]}
{"id": "C32", "title": "Ring-Pedersen parameter proof (prm): complete, and every challenge bit is answered", "statement": "An honest prm proof verifies; an accepted proof contains one valid answer for each of the challenge bits, so parameters with s outside the group generated by t are caught.", "quantifier": "all moduli, bases, secrets, challenge strings; all wire proofs", "why_tests_cant": "Malformed (e.g. truncated) proofs are never produced by the honest code under test.", "anchors": ["src/zk/prm.rs: PrmProof::verify"]}
{"id": "C33", "title": "Paillier-Blum modulus proof (mod): complete, and every challenge is answered", "statement": "An honest mod proof verifies for every Blum modulus; an accepted proof contains one valid answer for each of the challenges, so non-Blum moduli are caught.", "quantifier": "all Blum moduli, challenge vectors; all wire proofs", "why_tests_cant": "Malformed (e.g. truncated) proofs are never produced by the honest code under test.", "anchors": ["src/zk/mod_.rs: ModProof::verify"]}
{"id": "C34", "title": "Proofs are bound to their context", "statement": "A proof made for one context (session id, prover id, public inputs) is rejected in every other context whose challenge differs from the one it carries.", "quantifier": "all nine proof types, contexts and challenge functions", "why_tests_cant": "Replay across every pair of contexts.", "anchors": ["src/zk/*.rs: verify"]}
{"id": "C35", "title": "Shipped scheme parameters are consistent and leave room for every intermediate value", "statement": "For each shipped parameter set, and for any set passing the self-consistency check, every intermediate product and sum formed by honest provers and verifiers fits its integer type, so honest runs never hit an overflow panic.", "quantifier": "all parameter sets satisfying the inequalities; all secrets, masks and challenges", "why_tests_cant": "Worst-case magnitudes are never sampled.", "anchors": ["src/params/traits.rs: SchemeParams::SELF_CONSISTENT", "src/params/k256.rs", "src/params/dev.rs", "src/zk/*.rs"]}
{"id": "C36", "title": "Key generation: all honest parties end with one consistent key", "statement": "If every party follows key init, all of them finish with the same public map over exactly the given ids, each secret matching its public share, the key being the sum of all contributions (or all report the degenerate identity-sum error).", "quantifier": "all party sets, randomness, message orders", "why_tests_cant": "All party counts and schedules.", "anchors": ["src/protocols/key_init.rs"]}
{"id": "C37", "title": "Key generation: a finishing party only uses values committed and proven", "statement": "Whatever the other parties send, a party that finishes key init holds a secret matching its own public share, and every other party's public share in the result was opened from its round-1 commitment and carries a Schnorr proof accepted under the joint session value.", "quantifier": "all adversarial message histories", "why_tests_cant": "Adversary behaviour is unbounded.", "anchors": ["src/protocols/key_init.rs: Round1, Round2, Round3 receive/finalize"]}
{"id": "C38", "title": "Key refresh never changes the key, even with misbehaving peers", "statement": "Whatever the other parties send, a party that finishes key refresh obtains a change whose public parts sum to the identity and whose own secret part matches its own public part, so updating keeps the verifying key and consistency.", "quantifier": "all adversarial message histories, all party sets", "why_tests_cant": "Adversary behaviour is unbounded.", "anchors": ["src/protocols/key_refresh.rs"]}
{"id": "C39", "title": "Key resharing hands the same key to the new holders", "statement": "If the old holders (at least the old threshold) and new holders follow the protocol, the new holders end with threshold shares of the same verifying key that reconstruct from any new-threshold subset.", "quantifier": "all old/new holder sets and thresholds >= 2, randomness", "why_tests_cant": "All set overlaps and thresholds, including threshold 1.", "anchors": ["src/protocols/key_resharing.rs"]}
{"id": "C40", "title": "Key resharing rejects malformed contributions and enforces the new threshold", "statement": "Whatever an old holder sends, a new holder that finishes holds a share consistent with the public shares, the verifying key is unchanged, and the degree of the new sharing is the agreed threshold; malformed input leads to an attributable error, never a panic.", "quantifier": "all adversarial contributions", "why_tests_cant": "Adversary-chosen polynomials of any degree.", "anchors": ["src/protocols/key_resharing.rs: receive_message, finalize"]}
{"id": "C41", "title": "Signing: honest parties produce a valid signature", "statement": "If all parties follow interactive signing over matching key shares, everyone outputs the same ECDSA signature valid for the message and the group key.", "quantifier": "all party sets, key shares, messages, randomness", "why_tests_cant": "All randomness and party counts.", "anchors": ["src/protocols/interactive_signing.rs"]}
{"id": "C42", "title": "Signing never outputs an invalid signature", "statement": "Whatever the other parties send, if a party outputs a signature then it is valid for the requested message under the group verifying key; when all of its checks passed, the assembled value does satisfy the ECDSA equation, so it is not lost at the last step.", "quantifier": "all adversarial message histories", "why_tests_cant": "Adversary behaviour is unbounded.", "anchors": ["src/protocols/interactive_signing.rs: Round3/Round4", "src/curve/ecdsa.rs: RecoverableSignature::from_scalars"]}
{"id": "C43", "title": "Multiplicative-to-additive share conversion is exact", "statement": "For every pair of parties, the two sides' shares of the product sum to the product of the inputs modulo the group order, with no wrap-around modulo the Paillier modulus.", "quantifier": "all parameter-consistent key pairs, inputs in +-2^L, masks in +-2^LP", "why_tests_cant": "Worst-case magnitudes.", "anchors": ["src/protocols/interactive_signing.rs: Round1 finalize, Round2 receive/finalize"]}
{"id": "C44", "title": "Signatures are normalized and recoverable", "statement": "An output signature has s in the lower half, non-zero r and s, and recovering the key from the message with the reported recovery id gives the signer's key.", "quantifier": "all r, s, keys and messages", "why_tests_cant": "Boundary s = (q-1)/2.", "anchors": ["src/curve/ecdsa.rs: RecoverableSignature::from_scalars"]}
{"id": "C45", "title": "A detected fault yields evidence that third parties accept", "statement": "Whenever a party rejects a peer's message with an attributable error, the evidence check run by a third party on the corresponding signed messages confirms the fault.", "quantifier": "all protocols, all error kinds, all messages", "why_tests_cant": "Each error kind times each malformed message.", "anchors": ["src/protocols/*.rs: verify_messages_constitute_error, receive_message"]}
{"id": "C46", "title": "Honest behaviour cannot be framed", "statement": "No set of messages that an honest party could have sent, and that honest receivers accept, is confirmed as evidence of a fault.", "quantifier": "all protocols, error kinds, honest message sets", "why_tests_cant": "Needs evidence for error kinds that never occurred.", "anchors": ["src/protocols/*.rs: verify_messages_constitute_error"]}
{"id": "C47", "title": "No message from a peer can crash a party", "statement": "Processing any well-typed message from a peer either succeeds or returns an error; it never panics.", "quantifier": "all protocols, rounds and peer messages", "why_tests_cant": "Crafted inputs: even moduli, short random strings, non-invertible ciphertexts, one-term polynomials.", "anchors": ["src/protocols/*.rs: receive_message/finalize", "src/paillier/rsa.rs: PublicModulus::new", "src/tools/bitvec.rs: BitXorAssign", "src/uint/traits.rs: Exponentiable"]}
{"id": "C48", "title": "Message arrival order does not matter", "statement": "The outcome of a round depends only on the set of accepted messages, not on the order in which they arrived.", "quantifier": "all permutations of arrivals", "why_tests_cant": "n! schedules.", "anchors": ["src/tools/protocol_shortcuts.rs", "src/protocols/*.rs: finalize"]}
{"id": "C49", "title": "Protocol entry points reject inconsistent local inputs", "statement": "Starting a protocol fails with a local error when the local id is missing from the party set, or key share and auxiliary info belong to different owners or cover different parties; otherwise it starts.", "quantifier": "all inputs", "why_tests_cant": "All mismatch shapes.", "anchors": ["src/protocols/*.rs: new, make_entry_point/make_round"]}
{"id": "C50", "title": "Challenge residues derived from the hash are canonical units", "statement": "Residues derived from the extendable-output hash for the modulus proof are invertible modulo N and in [0, N).", "quantifier": "all hash outputs and odd moduli", "why_tests_cant": "Out-of-range draws occur with noticeable probability only for unlucky moduli and are never asserted on.", "anchors": ["src/paillier/rsa.rs: PublicModulus::invertible_residue_from_xof_reader"]}
{"id": "C51", "title": "Local range assertions of the error rounds hold for honest parties", "statement": "In the error rounds an honest party's aggregated delta and chi values always fit the announced interval, so an honest party never aborts itself locally while proving innocence.", "quantifier": "all party counts >= 2, all parameter sets, all in-range inputs and masks", "why_tests_cant": "Worst-case sums over all parties.", "anchors": ["src/protocols/interactive_signing.rs: Round5/Round6 construction", "src/zk/dec.rs"]}
{"id": "C52", "title": "Error rounds always find a culprit", "statement": "If the combined nonce or combined check value is wrong, at least one party's claimed values contradict the relations checked in the error rounds, i.e. not all parties can satisfy them.", "quantifier": "all party sets and claimed values", "why_tests_cant": "Needs arbitrary collusion.", "anchors": ["src/protocols/interactive_signing.rs: Round3 finalize, Round5, Round6"]}
{"id": "C53", "title": "Accepted range proofs tie the ciphertexts to the claimed points", "statement": "If an encryption, affine-operation or decryption proof is accepted, the ciphertexts in its statement are related to the curve points in its statement by a common small exponent: no proof is accepted for a ciphertext unrelated to the point (up to the usual rewinding argument).", "quantifier": "all proofs received from the network, all statements, all hash functions", "why_tests_cant": "Tests only mutate honest proofs; a forged proof with degenerate commitments is outside any sample.", "anchors": ["src/zk/enc_elg.rs: EncElgProof::verify", "src/zk/aff_g.rs: AffGProof::verify", "src/zk/aff_g_star.rs: AffGStarProof::verify", "src/zk/dec.rs: DecProof::verify", "src/paillier/encryption.rs: CiphertextWire::to_precomputed, MaskedRandomizer"]}
{"id": "C54", "title": "Auxiliary info is consistent and vetted", "statement": "If all parties run auxiliary info generation honestly, they all finish with the same public keys and ring-Pedersen parameters for every party, and each owns the primes of its own public key. Whatever the others do, a party that finishes holds its own key and, for every other party, a key and parameters that were committed to before any were revealed, with odd moduli of the required size and accepted proofs bound to the session, the sender and the joint random string.", "quantifier": "all party sets, all draws, all delivery orders; all behaviours of the other parties", "why_tests_cant": "Tests run a handful of parties with honest peers; the guarantee against misbehaving peers ranges over all their messages.", "anchors": ["src/protocols/aux_gen.rs: AuxGen, Round1, Round2, Round3", "src/entities/full.rs: AuxInfo"]}
{"id": "C55", "title": "A key keeps its identity and keeps signing over any history of operations", "statement": "Start from a key made by a dealer or by distributed key generation. Apply any sequence of refreshes (key refresh, then updating the shares), conversions between full and threshold shares, resharings to other holders and child key derivations. Then the current holders always share one non-zero secret whose public key is the verifying key reported by every share; it changes only by derivation, and then to the derived verifying key. From every such state each operation can be carried out again by honest parties. Signing with the current full shares, and auxiliary info from generation, refresh and restriction to subsets, makes all honest signers output the same valid signature under this verifying key. If other signers misbehave, a signature that an honest one outputs is still valid under it.", "quantifier": "all finite histories of operations, all sets of holders and thresholds along the way, all honest draws, all message orders, all messages to sign; for the last part all messages sent by others", "why_tests_cant": "a test runs one or two fixed sequences of operations; the claim is about every history, and each operation must keep exactly what the next one needs", "anchors": ["src/entities/full.rs: KeyShare", "src/entities/threshold.rs: ThresholdKeyShare", "src/protocols/key_init.rs", "src/protocols/key_refresh.rs", "src/protocols/key_resharing.rs", "src/protocols/aux_gen.rs", "src/protocols/interactive_signing.rs"]}
{"id": "C56", "title": "Evidence is self-contained", "statement": "When a participant reports another one, it attaches the messages of the accused party that the error declares as needed. Whoever receives the report gets the verdict that all messages of the accused party would give: the declared messages are ones the accused party really sends, none that the check reads is missing, and nothing beyond them changes the outcome. In particular a message rejected in key initialization, auxiliary info generation or key refresh always leads to a report that every verifier accepts.", "quantifier": "all errors of all protocols, all messages of the accused party, all sets of attached genuine messages that contain the declared ones", "why_tests_cant": "each error lists its messages by hand, separately from the code that reads them; tests reach only some errors (several are marked as unreachable from tests) and only with one transcript", "anchors": ["src/protocols/key_init.rs: required_messages, verify_messages_constitute_error", "src/protocols/aux_gen.rs: required_messages, verify_messages_constitute_error", "src/protocols/key_refresh.rs: required_messages, verify_messages_constitute_error", "src/protocols/interactive_signing.rs: required_messages, verify_messages_constitute_error"]}
{"id": "C57", "title": "Honest participants that finish agree", "statement": "If two honest participants of the same session both finish and the echoed broadcasts reached both of them unchanged, they agree on the public result, whatever the other participants sent: after signing they output the same signature (r, s and recovery id), after key generation they hold the same public shares and key, after auxiliary info generation the same public parameters; and what each holds secretly matches what the other holds about it. In particular a signer can influence the signature only by the nonce point it broadcasts in the second round.", "quantifier": "all party sets, all pairs of honest parties, all their draws, all messages of the other parties in all rounds, all delivery orders", "why_tests_cant": "tests compare outputs of honest runs; with deviating parties the space of messages is unbounded and the honest parties may see different direct messages", "anchors": ["src/protocols/interactive_signing.rs: Round2, Round3, Round4", "src/protocols/key_init.rs: Round2, Round3", "src/protocols/aux_gen.rs: Round2, Round3"]}
{"id": "C58", "title": "Scalars and points survive the wire, and nothing else is accepted", "statement": "A scalar or curve point that is serialized deserializes to itself. Scalar bytes are accepted exactly if they have the fixed length and denote a number below the group order, so each scalar has one encoding. Every point that can be received can also be sent and hashed; no received point makes the receiver crash.", "quantifier": "all scalars, all byte strings, all points including the identity, all messages of key generation, key refresh and the first signing round", "why_tests_cant": "tests use random scalars and points, which are never the identity and never at the edge of the order", "anchors": ["src/curve/arithmetic.rs: Scalar::to_be_bytes, Scalar::try_from_be_bytes, Point::to_compressed_array, Point::try_from_compressed_bytes", "src/protocols/key_init.rs: PublicData::hash", "src/protocols/key_refresh.rs: PublicData::hash", "src/zk/enc_elg.rs: EncElgProof::verify"]}
{"id": "C59", "title": "Scalars taken from hashes are exact and nearly uniform", "statement": "A challenge scalar is the number in twice the scalar's length of hash output, modulo the group order; over all possible hash outputs every scalar occurs equally often up to one. A message digest of the scalar's length becomes the number it denotes modulo the order, as ECDSA requires.", "quantifier": "all hash outputs, all scalars, all orders and lengths", "why_tests_cant": "a bias or a wrong limb order only shows in the distribution over all 2^512 hash outputs", "anchors": ["src/curve/arithmetic.rs: Scalar::from_xof_reader, Scalar::from_reduced_bytes"]}
{"id": "C60", "title": "Zero-knowledge proofs reveal nothing beyond their statement", "statement": "For every kind of zero-knowledge proof the library produces there is a simulator that knows only the public statement and the challenge, and whose transcripts are distributed like those of the honest prover up to a stated distance. The distance is zero for the proofs about discrete logarithms and about the form of the Paillier modulus (the latter for random challenges), and at most 2^-200 for the others with the production parameters.", "quantifier": "all witnesses in the required ranges, all challenges, all keys, all setups", "why_tests_cant": "a mask that is too short, or a response that omits its mask, still gives proofs that verify; the leak only shows in the distribution over all random choices", "anchors": ["src/zk/sch.rs: SchProof::new", "src/zk/elog.rs: ElogProof::new", "src/zk/enc_elg.rs: EncElgProof::new", "src/zk/aff_g.rs: AffGProof::new", "src/zk/aff_g_star.rs: AffGStarProof::new", "src/zk/dec.rs: DecProof::new", "src/zk/prm.rs: PrmProof::new", "src/zk/mod_.rs: ModProof::new", "src/zk/fac.rs: FacProof::new"]}
{"id": "C61", "title": "One honest participant is enough to keep keys, refreshed shares and nonces unbiased", "statement": "If a participant draws its contribution uniformly and the others commit in the first round independently of it, then whatever the others do afterwards, a generated key equals a given point with probability at most one over the group order, a public share change of a refresh equals a given point with probability at most one over the number of non-zero scalars (with at least two participants), and the r of a signature equals a given value with probability at most the number of nonces having that r over the group order. For keys and share changes this needs only that the commitment hash has no collisions; for nonces, that the accepted proofs linking the second round to the first have true statements.", "quantifier": "all strategies of the other participants after the first round (their messages may be any function of the honest draws), all targets, all sessions", "why_tests_cant": "it is a bound over all adversarial strategies and over the distribution of the random draws", "anchors": ["src/protocols/key_init.rs: KeyInit::make_round, Round2::receive_message", "src/protocols/key_refresh.rs: KeyRefresh::make_round, Round2::receive_message", "src/curve/arithmetic.rs: secret_split", "src/protocols/interactive_signing.rs: Round2::receive_message, Round2::finalize"]}
{"id": "C62", "title": "Signers go the same way after round 3", "statement": "Two honest signers of the same key that saw the same echoed broadcasts in rounds 1 to 3 go the same way at the end of round 3: either both continue to the signature shares, or both enter the same error round.", "quantifier": "all party sets and keys, all behaviours of the other signers, all messages that are not echoed", "why_tests_cant": "it needs an adversary that sends different unechoed messages to different signers", "anchors": ["src/protocols/interactive_signing.rs: Round3::make_echo_broadcast, Round3::make_normal_broadcast, Round3::receive_message, Round3::finalize"]}
{"id": "C63", "title": "An honest party is not accused by an honest party", "statement": "If two parties both follow a protocol, and each receives in the other's name only what it sent, and both receive the same echoed broadcasts, then neither of them ends the protocol with the result that the other one is at fault, whatever the remaining parties send.", "quantifier": "all protocols, party sets, random draws and keys, all behaviours of the remaining parties, also different ones towards different parties, all delivery orders", "why_tests_cant": "it quantifies over all strategies of the other parties, including equivocation in messages that are not echoed", "anchors": ["src/protocols/key_init.rs: KeyInit", "src/protocols/key_resharing.rs: KeyResharing", "src/protocols/aux_gen.rs: AuxGen", "src/protocols/key_refresh.rs: KeyRefresh", "src/protocols/interactive_signing.rs: InteractiveSigning, Round5, Round6"]}
{"id": "C64", "title": "Messages and rounds are declared consistently", "statement": "Whatever parts of a message (direct message, echo broadcast, normal broadcast) an honest party sends in a round, receivers accept and nobody confirms as faulty; a part that a receiver rejects because it does not decode or should not be there is confirmed as faulty by third parties. The declared order of rounds is consistent, and a party waits exactly for those that send to it.", "quantifier": "all protocols, rounds and message parts, all contents of a part, all sets of old and new holders in resharing", "why_tests_cant": "tests exercise well-formed messages and a few malformed ones; the declarations must match for every round, part and content", "anchors": ["src/protocols/*.rs: verify_direct_message_is_invalid, verify_echo_broadcast_is_invalid, verify_normal_broadcast_is_invalid, transition_info, communication_info, make_direct_message, make_echo_broadcast, make_normal_broadcast, receive_message"]}
{"id": "C65", "title": "Different things are never hashed as the same bytes", "statement": "Two uses of the hash function with different purposes (session ids, signing session ids, commitments, encryption masks, each kind of proof) never feed it the same bytes, not even as a prefix. Within a purpose and protocol, the same bytes are fed only if everything hashed is the same: scheme parameters, shared randomness and party ids in a session id; key shares and auxiliary infos in a signing session id; all commitments, public inputs, setup parameters and auxiliary data in a proof. The bytes do not depend on whether the platform has 32- or 64-bit words.", "quantifier": "all parameter sets, session randomness, sets of parties, key shares, proofs and auxiliary data; all self-delimiting ways of writing single values", "why_tests_cant": "collisions of the input to the hash are found by no random test; the claim is about all pairs of inputs", "anchors": ["src/tools/hashing.rs: Chain, Hasher", "src/entities/internal.rs: Sid::new", "src/protocols/interactive_signing.rs: Epid::new", "src/params/traits.rs: chain_scheme_params", "src/curve/arithmetic.rs: chain_curve", "src/paillier/params.rs: chain_paillier_params", "src/protocols/{key_init,aux_gen,key_refresh}.rs: PublicData::hash", "src/zk/*.rs: HASH_TAG"]}
{"id": "C66", "title": "Signers that were told different messages", "statement": "What a signer sends before its signature share, and how it fails, does not depend on the message to be signed. If two honest signers were told different messages, neither accepts the other's signature share and neither outputs a signature; and no honest signer is held guilty for it.", "quantifier": "all pairs of messages, key shares and randomness; all messages received from the other signers, as long as both honest signers see the same echo broadcasts", "why_tests_cant": "tests run sessions where everybody is told the same message; the claim is about every pair of messages and every behaviour of the other parties", "anchors": ["src/protocols/interactive_signing.rs: InteractiveSigning::new, make_round, Round3::finalize, Round4::receive_message, InteractiveSigningError::verify_messages_constitute_error, Epid::new"]}
{"id": "C67", "title": "Checking evidence does not crash", "statement": "Whatever messages are presented as evidence of an error, a third party that checks them gets an answer (accepted, rejected or not checkable); the check does not panic.", "quantifier": "all protocols, errors, accused parties and presented messages, including malformed ones made together by the accused and the accuser", "why_tests_cant": "the messages are chosen by an adversary; a test would have to guess the malformed value that reaches a failing unwrap or assertion", "anchors": ["src/protocols/key_init.rs: verify_messages_constitute_error", "src/protocols/aux_gen.rs: verify_messages_constitute_error", "src/protocols/key_refresh.rs: verify_messages_constitute_error, reconstruct_rid", "src/protocols/interactive_signing.rs: verify_messages_constitute_error", "src/protocols/key_resharing.rs: verify_messages_constitute_error"]}
{"id": "C68", "title": "Generated keys and ring-Pedersen parameters are usable", "statement": "Whatever primes the prime generator returns, generating a Paillier key and ring-Pedersen parameters succeeds without a panic, and the result is what the protocols assume of an honest party: distinct primes of full size, both 3 mod 4, a modulus of exactly the declared number of bits, an exponent in the declared range, and commitment bases of which one is a uniformly distributed power of the other among the invertible squares.", "quantifier": "all primes that satisfy the contract of the prime generator, all numbers drawn, with and without debug assertions", "why_tests_cant": "a test sees a few random keys; coincidences (equal primes, an exponent at the end of its range, a base of small order) never occur in one", "anchors": ["src/paillier/rsa.rs: random_paillier_blum_prime, SecretPrimesWire::new, random_paillier_blum, random_safe, SecretPrimes::new, random_residue_mod_totient, PublicModulus::random_invertible_residue", "src/paillier/keys.rs: SecretKeyPaillierWire::random, SecretKeyPaillier::new", "src/paillier/ring_pedersen.rs: RPSecret::random"]}
{"id": "C69", "title": "Signing does not reveal a signer's secret share to the other signers", "statement": "What a signer sends in answer to the encrypted nonce shares of the others hides its secret key share and its nonce factor from their recipients: whatever messages a recipient sent and got accepted before, the distribution of the answer it can decrypt is almost the same for all values of the secret.", "quantifier": "all accepted first messages of the recipient, all secrets, uniform masks and randomizers; signers with valid shares, keys and parameters", "why_tests_cant": "a test sees single ciphertexts made for honest requests; hiding is a statement about distributions for all requests, and the requests that break it are made by no test", "anchors": ["src/protocols/interactive_signing.rs: Round1::receive_message, Round1::finalize, Round2::make_normal_broadcast", "src/zk/enc_elg.rs: EncElgProof::verify", "src/paillier/encryption.rs: Ciphertext, MaskedRandomizer"]}
{"id": "C70", "title": "Commitments made with another party's accepted parameters hide the committed secrets", "statement": "The proofs that a party sends contain commitments to its secrets (the primes of its Paillier key, its nonce shares, its key share), made with ring-Pedersen parameters that the recipient published and that were accepted when the auxiliary info was generated. The distribution of such a commitment is almost the same for all values of the secret, for all parameters that a recipient can get accepted.", "quantifier": "all accepted parameters, all committed values, uniform masks; all parties that follow the protocol, with one recipient that may choose its parameters freely", "why_tests_cant": "hiding is a statement about distributions and about all parameters that pass the checks; tests only generate honest parameters", "anchors": ["src/paillier/ring_pedersen.rs: RPParams::commit, RPParamsWire::to_precomputed", "src/zk/prm.rs: PrmProof::verify", "src/zk/fac.rs: FacProof::new", "src/zk/enc_elg.rs: EncElgProof::new", "src/zk/aff_g.rs: AffGProof::new", "src/protocols/aux_gen.rs: Round2::receive_message, Round3::make_direct_message"]}
{"id": "C71", "title": "The nonce of a signature is fixed by the first messages of the signers", "statement": "Once every signer has broadcast its first message, the nonce point of the signature (and so its `r`) is determined: whatever a signer sends afterwards, in particular after it has seen the nonce points of the others, a run that finishes uses the sum of the points the first messages commit to. A proof that makes another point be accepted can exist for at most one value of the challenge.", "quantifier": "all pairs of finishing runs that share the broadcasts of round 1, of the same or of different signers, for all messages sent from round 2 on, all hash functions; proofs that could have answered only the one challenge that was drawn are excepted", "why_tests_cant": "it compares all possible continuations of a first round and all proofs an adversary might make", "anchors": ["src/protocols/interactive_signing.rs: Round1EchoBroadcast, Round2::receive_message, Round2::finalize", "src/zk/elog.rs: ElogProof::verify"]}
{"id": "C72", "title": "Printing for debugging shows no secrets", "statement": "Whatever object of the library or running session is printed with the debug formatter, the output is determined by its public parts: key shares, key share changes, threshold key shares, auxiliary info, entry points and the states of sessions that differ only in secrets print the same.", "quantifier": "all values of all types that hold secrets, in all rounds of all runs", "why_tests_cant": "it compares the output for all pairs of values that differ in their secrets only, in every reachable state", "anchors": ["src/tools/secret.rs: Debug for Secret", "src/entities/full.rs: KeyShare, AuxInfo, AuxInfoPrecomputed, KeyShareChange", "src/entities/threshold.rs: ThresholdKeyShare", "src/paillier/keys.rs: SecretKeyPaillier", "src/protocols/*.rs: Context, Round1..Round6"]}
{"id": "C73", "title": "Changing the size of integers keeps their value", "statement": "Widening an integer to a larger type keeps its value and never fails; narrowing gives the integer of the same value if it fits and reports failure otherwise; multiplication into the sum of the two sizes is exact; the byte encoding of an integer is its big-endian representation of fixed length, is read back as the same integer, and exactly the byte strings of that length are accepted.", "quantifier": "all numbers of limbs, all integers of these sizes, all byte strings", "why_tests_cant": "integers have thousands of bits; the tests use a few sizes and random values, which never hit the boundary of narrowing", "anchors": ["src/uint/traits.rs: Extendable::to_wide, Extendable::try_from_wide, MulWide::mul_wide, BoxedEncoding"]}
{"id": "C74", "title": "An accepted small-factor proof rules out small factors", "statement": "Whoever can answer two different challenges for the same commitments of a small-factor proof about a modulus with two prime factors, of the size the protocols check, either knows a relation between the two bases of the verifier's ring-Pedersen parameters, or both factors of its modulus are larger than 2^(L-1). If the parameters were made honestly such a relation gives their secret exponent or a multiple of the secret order of the group of squares.", "quantifier": "all moduli, all parameters with invertible bases, all pairs of accepted proofs, honest or not, all hash functions", "why_tests_cant": "it is a statement about all proofs an adversary might make, which no test can enumerate; tests only run the honest prover", "anchors": ["src/zk/fac.rs: FacProof::verify", "src/paillier/ring_pedersen.rs: RPParams", "src/protocols/aux_gen.rs: Round3::receive_message"]}
{"id": "C75", "title": "Child keys by derivation path", "statement": "The child key for a path depends only on the group's verifying key and the path, not on how the key is shared. Deriving along a path and then along a second one gives the key of the joined path. Somebody who is given a derived share or key and the parent's public key does not learn the parent's share or key. (The last two are false of the code: every derivation starts with a chain code computed from the public key at hand, so steps do not compose, and all tweaks are computable from the public key, so a derived share gives away the parent's and every sibling's.)", "quantifier": "all sharings, thresholds, paths, tweak functions and chain-code functions", "why_tests_cant": "a test tries a few paths on one sharing; that no path composes, and that a derived share always reveals its parent, are statements about all of them", "anchors": ["src/curve/bip32.rs: derive_tweaks, apply_tweaks_public, DeriveChildKey", "src/entities/threshold.rs: ThresholdKeyShare::derive_bip32"]}
{"id": "C76", "title": "Shares from before and after a refresh or resharing do not add up", "statement": "Refreshing and resharing protect against somebody who gets at different parties over time. If in every period there is a party whose share is not seen and who is not observed in the refreshes around it, the secret values seen do not tell which key is shared, even if every share was seen in one period or another. In resharing, fewer shares than the old threshold together with everything sent to fewer new holders than the new threshold tell nothing about the key.", "quantifier": "all sets of parties, numbers of refreshes, choices of parties seen in each period, thresholds, and pairs of keys; random draws uniform", "why_tests_cant": "hiding is a statement about distributions over all draws, for every history and every choice of what is seen", "anchors": ["src/curve/arithmetic.rs: secret_split", "src/protocols/key_refresh.rs: KeyRefresh::make_round, Round3::finalize", "src/protocols/key_resharing.rs: KeyResharing::make_round, Round1::make_direct_message", "src/entities/full.rs: KeyShare::update, KeyShare::new_centralized"]}
{"id": "C77", "title": "Stored key shares and auxiliary data are read back unchanged, and damaged ones are refused", "statement": "A key share, a change of a share, a threshold key share or auxiliary info that is serialized and deserialized again is the same as before, for every one the protocols and constructors can produce; the Paillier secret key rebuilt from the stored primes is the one used before. Stored data whose parts do not belong together is refused when it is read.", "quantifier": "all shares, changes, threshold shares and auxiliary info, all party sets, curves and sizes; all changes to the stored secret, owner, public shares and primes", "why_tests_cant": "the cases that go wrong (an identity point among the public shares, equal primes) are never met by random tests, and validation of loaded data is a claim about every stored byte string", "anchors": ["src/entities/full.rs: KeyShare, KeyShareChange, AuxInfo, AuxInfo::into_precomputed", "src/entities/threshold.rs: ThresholdKeyShare", "src/curve/arithmetic.rs: impl Serialize/Deserialize for Scalar and Point", "src/paillier/rsa.rs: SecretPrimesWire", "src/tools/secret.rs: impl Serialize/Deserialize for Secret"]}
{"id": "C78", "title": "Damaged or outdated key material is noticed by the other signers", "statement": "If parties follow interactive signing but some of them use a secret share that does not belong to their public share, the first round succeeds, and every party that hears from such a party stops with an error in the second round and blames one of those parties, never one with an intact share (unless all hashed challenges in its proofs are zero). If parties use key shares or auxiliary data of different periods, then every party that hears from one with another version stops in the first round and blames such a party, provided the hashes of the different inputs differ. The party that holds the damaged or outdated data is not warned when it starts.", "quantifier": "all party sets, keys, sets of damaged parties and wrong values, assignments of versions to parties, arrival orders, hash functions and honest randomness", "why_tests_cant": "tests sign with matching shares; which of the parties is blamed for which mismatch ranges over all values, subsets of parties and message orders", "anchors": ["src/protocols/interactive_signing.rs: InteractiveSigning::new, make_round, Round1, Round2", "src/zk/enc_elg.rs: EncElgProof::verify", "src/zk/aff_g.rs: AffGProof::verify"]}
{"id": "C79", "title": "The steps taken on secret numbers do not depend on their values", "statement": "Calculating with secret numbers goes through the same steps (calls of library functions, branches, operands of functions that are declared variable-time) for any two secrets with the same public bounds: arithmetic, range checks, constructors, widening, conversion from scalars, exponentiation, commitments, encryption, decryption, recovery of randomizers, conversion to scalars and the operations modulo the secret primes.", "quantifier": "all programs of arithmetic operations, all widths, bounds, pairs of secrets, public operands, keys and ciphertexts", "why_tests_cant": "a statement about pairs of runs for all secrets; the crate's constant-time benchmarks compare timings of two classes of inputs statistically and cover a few functions", "anchors": ["src/uint/secret_signed.rs: SecretSigned", "src/uint/secret_unsigned.rs: SecretUnsigned", "src/uint/traits.rs: Exponentiable, Extendable::try_from_wide", "src/paillier/encryption.rs: Ciphertext::new_with_randomizer, decrypt, derive_randomizer", "src/paillier/ring_pedersen.rs: RPParams::commit", "src/paillier/keys.rs: SecretKeyPaillier::new, rns_split, sqrt_part", "src/params/conversion.rs: secret_scalar_from_signed, secret_signed_from_scalar"]}
{"id": "C80", "title": "Honest parties finish under every schedule", "statement": "If all parties follow a protocol (key generation, auxiliary info, refresh, resharing, signing), then in whatever order their messages are delivered and their rounds are finished, no party is ever stopped by a message, some party can always go on until all have finished, the number of steps is bounded, and the results are the intended ones, which do not depend on the schedule.", "quantifier": "all numbers of parties, all random draws, all interleavings of deliveries and round ends of a concurrent execution, including parties that crash", "why_tests_cant": "the number of interleavings grows exponentially with parties and rounds; the crate's tests run one random schedule per case", "anchors": ["src/protocols/key_init.rs: Round1, Round2, Round3", "src/protocols/aux_gen.rs: Round1, Round2, Round3", "src/protocols/key_refresh.rs: Round1, Round2, Round3", "src/protocols/key_resharing.rs: Round1", "src/protocols/interactive_signing.rs: Round1, Round2, Round3, Round4, Round5, Round6"]}
{"id": "C81", "title": "Concurrent executions refine the runs of single parties, and honest parties agree", "statement": "Whatever dishonest parties do and however messages are scheduled, a party that follows a protocol and finishes has the result of the sequential run on the messages it received, and what it received in the name of another honest party is what that party makes from what it received itself. If the echo round has compared the broadcasts, any two honest parties that finish key generation, auxiliary info or refresh agree on the public results, each one's secrets matching what the other has about it; and any two honest signers have the same signature.", "quantifier": "all sets of honest parties, adversaries that choose messages adaptively and differently for each receiver, schedules and crash points", "why_tests_cant": "adaptive adversaries and all interleavings", "anchors": ["src/protocols/key_init.rs: Round1, Round2, Round3", "src/protocols/aux_gen.rs: Round1, Round2, Round3", "src/protocols/key_refresh.rs: Round1, Round2, Round3", "src/protocols/key_resharing.rs: Round1", "src/protocols/interactive_signing.rs: Round1, Round2, Round3, Round4, Round5, Round6"]}
{"id": "C82", "title": "After an honest party has revealed its contribution the outcome is fixed", "statement": "From the moment on when an honest party has sent its second message of key generation, auxiliary info or refresh (which reveals its contribution) to anybody, its result is determined: all continuations of the execution in which it finishes end with the same result, so dishonest parties that wait for the contributions of the others can only choose between this result and none.", "quantifier": "all executions up to that moment, all pairs of continuations, all adaptive adversaries and schedules; the commitment hash is injective", "why_tests_cant": "compares all pairs of continuations with adaptive (rushing) adversaries", "anchors": ["src/protocols/key_init.rs: Round1, Round2, Round3", "src/protocols/aux_gen.rs: Round1, Round2, Round3", "src/protocols/key_refresh.rs: Round1, Round2, Round3"]}
{"id": "C83", "title": "In concurrent executions honest parties do not accuse each other", "statement": "At any time of any concurrent execution of a protocol whose echo broadcasts work, a party that follows the protocol and stops with a provable error about another party is right in that this party does not follow the protocol, however messages are scheduled and whatever dishonest parties send to whom.", "quantifier": "all sets of honest parties, adversaries that choose messages adaptively and differently for each receiver, schedules and crash points", "why_tests_cant": "adaptive adversaries that equivocate, combined with all interleavings", "anchors": ["src/protocols/key_init.rs: Round1, Round2, Round3", "src/protocols/aux_gen.rs: Round1, Round2, Round3", "src/protocols/key_refresh.rs: Round1, Round2, Round3", "src/protocols/key_resharing.rs: Round1", "src/protocols/interactive_signing.rs: Round1, Round2, Round3, Round4, Round5, Round6"]}
{"id": "C84", "title": "Honest signers do not wait for each other in different rounds", "statement": "In a concurrent execution of signing whose echo broadcasts work, the honest signers that get past round 3 all go on to the same round (signature shares, or one of the two rounds that look for the cause of a failure), so that none of them waits for ever for messages that the others are never going to send.", "quantifier": "all sets of honest signers, adversaries that send different things to different signers, schedules and crash points", "why_tests_cant": "an adversary that splits the honest signers, and all continuations of such an execution", "anchors": ["src/protocols/interactive_signing.rs: Round3::finalize, Round4, Round5, Round6"]}
{"id": "C85", "title": "In concurrent executions honest parties do not panic", "statement": "At no time of a concurrent execution of a protocol does a party that follows the protocol panic, whatever the others send and in whatever order messages arrive.", "quantifier": "all sets of honest parties, adversaries that choose messages adaptively and differently for each receiver, schedules and crash points", "why_tests_cant": "all messages an adversary can make up from what it has seen, in all rounds and orders", "anchors": ["src/protocols/key_init.rs: Round2::finalize", "src/protocols/aux_gen.rs: Round2::receive_message, Round2::finalize", "src/protocols/key_refresh.rs: Round2::receive_message", "src/protocols/key_resharing.rs: Round1::receive_message, Round1::finalize", "src/protocols/interactive_signing.rs: Round1::finalize, Round2::finalize, Round3::finalize"]}
{"id": "C86", "title": "In concurrent executions evidence convinces everyone, and nothing an honest party signs can be used against it", "statement": "When a party that follows key generation, auxiliary info generation or key refresh refuses a message and accuses its sender, it can present what the sender signed, and everybody who checks this evidence agrees. Conversely, from everything that a party following the protocol has signed until then, nobody can put together evidence that convicts it, provided that direct messages are only presented by those they were sent to.", "quantifier": "all sets of honest parties, adversaries, schedules and crash points; all combinations of signed message parts into evidence of any kind", "why_tests_cant": "all executions, and all ways to combine signed parts from different rounds and receivers", "anchors": ["src/protocols/key_init.rs: KeyInitError::verify_messages_constitute_error", "src/protocols/aux_gen.rs: AuxGenError::verify_messages_constitute_error", "src/protocols/key_refresh.rs: KeyRefreshError::verify_messages_constitute_error"]}
{"id": "C87", "title": "In concurrent executions of signing, evidence convinces everyone and nothing an honest signer signs can be used against it", "statement": "When a party that follows the signing protocol refuses a message and accuses its sender, it can present what the sender signed, and everybody who checks this evidence agrees. Conversely, from everything that an honest signer has signed until then, nobody can put together evidence that convicts it.", "quantifier": "all sets of honest signers, adversaries, schedules and crash points; all combinations of signed message parts into evidence of any kind", "why_tests_cant": "all executions, and all ways to combine signed parts from different rounds and receivers", "anchors": ["src/protocols/interactive_signing.rs: InteractiveSigningError::required_messages", "src/protocols/interactive_signing.rs: InteractiveSigningError::verify_messages_constitute_error"]}
{"id": "C88", "title": "Over any history of sessions, whatever the others do, the honest holders keep the key", "statement": "Take any history of dealing, key generation, refreshes, resharings, conversions between threshold and full shares, and derivations. In every session the parties that are not honest and the network do what they want, and after every operation further parties may stop being honest or may not finish. As long as in resharings the polynomials that are accepted have at most as many coefficients as the new threshold says and the claimed share ids are distinct (which the code does not check), the honest holders agree on all public shares, each has the secret share that belongs to its public share, all report the verifying key that the key had all along, and every signature that one of them ends with in any execution of signing is valid under it.", "quantifier": "all histories of any length, all sets of honest parties in each of the sessions, all adversaries, schedules and crash points", "why_tests_cant": "unbounded histories of sessions, each with an arbitrary adversary", "anchors": ["src/protocols/key_init.rs: KeyInit", "src/protocols/key_refresh.rs: KeyRefresh", "src/protocols/key_resharing.rs: KeyResharing", "src/entities/full.rs: KeyShare::update", "src/entities/threshold.rs: ThresholdKeyShare", "src/protocols/interactive_signing.rs: InteractiveSigning"]}
{"id": "C89", "title": "Secrets are wiped when they are dropped", "statement": "After any sequence of operations on wrapped secrets each secret that still exists has the value that the same operations give on plain values, no operation uses memory that was given up, operands passed by reference are unchanged, and all memory that does not hold a secret that still exists is zero, including the boxes and variables that the operations themselves used.", "quantifier": "all sequences of operations that the borrow checker admits, all values, all arithmetic of the wrapped types", "why_tests_cant": "all sequences; what is left in memory is not visible to a test", "anchors": ["src/tools/secret.rs: Secret", "src/params/conversion.rs: secret_scalar_from_wide_uint", "src/params/conversion.rs: secret_uint_from_scalar"]}
{"id": "C90", "title": "Messages survive the wire", "statement": "Every message that an honest party sends in any of the protocols can be serialized, and deserializing gives the same message; whatever bytes arrive, what is deserialized has all its integers in the range of their types.", "quantifier": "all parts of all messages of all rounds of the five protocols, all states that an honest party can reach whatever it receives, all serialized data", "why_tests_cant": "all messages and all states; tests send a few honest messages", "anchors": ["src/protocols/interactive_signing.rs: Round1EchoBroadcast", "src/protocols/key_refresh.rs: Round2NormalBroadcast", "src/uint/public_signed.rs: PackedSigned", "src/tools/bitvec.rs: PackedBitVec", "src/curve/arithmetic.rs: Point"]}
{"id": "C91", "title": "The guarantees hold over serialized messages", "statement": "Whatever bytes dishonest parties put on the wire, a session over serialized messages takes the course of one over well-formed messages: honest parties that finish agree, whoever is blamed (also for unreadable data) is not honest, messages with a part too many or too few are rejected, and parties that follow the protocol finish.", "quantifier": "all five protocols, all sets of dishonest parties, all data they send, all schedules and crashes, all points at which hashing an identity point panics", "why_tests_cant": "all byte strings and all schedules; tests exchange messages of honest parties", "anchors": ["src/protocols/interactive_signing.rs: receive_message", "src/protocols/key_init.rs: receive_message", "src/protocols/key_refresh.rs: receive_message", "src/protocols/key_resharing.rs: receive_message", "src/protocols/aux_gen.rs: receive_message"]}
{"id": "C92", "title": "Over serialized messages sessions finish exactly if no identity point is sent", "statement": "If all parties follow the protocol and messages are serialized, then key generation, key refresh, key resharing and signing finish with the right results under every schedule if and only if no message contains the identity point of the curve; and a party that has to send one never finishes, whatever the others do. A resharing finishes exactly if no old holder has zero for a share.", "quantifier": "all sets of parties, all inputs and random draws of the four protocols, all schedules; for the second part all sets of dishonest parties and all data they send", "why_tests_cant": "identity points come up with negligible probability in tests, and the schedules are all of them", "anchors": ["src/curve/arithmetic.rs: Point (Serialize), Scalar::random", "src/tools/sss.rs: Polynomial::public", "src/protocols/key_resharing.rs: make_echo_broadcast", "src/protocols/interactive_signing.rs", "src/protocols/key_refresh.rs"]}
{"id": "C93", "title": "Which identity points make whom panic", "statement": "Hashing serializes points, and an identity point cannot be serialized. Key generation therefore finishes under every schedule exactly if nobody has drawn zero for its share or its proof; key refresh exactly if there are at least two parties and nobody has drawn zero for a share change (including the last one, which makes the sum zero), a mask or a proof; signing exactly if nobody sends an identity point and nobody's share of the key is zero. Whatever the others do, a party with such a draw or share never finishes. And although honest parties never send identity points, they can be received: a dishonest party makes an honest one panic, instead of being blamed, with any round 2 message of key generation or key refresh, or any message of rounds 1 and 2 of signing, that contains an identity point; in signing already with its first packet.", "quantifier": "all sets of parties, inputs and draws, all schedules, all sets of dishonest parties and all data they send; for the panics all reachable states in which an honest party waits for the message, and all messages with an identity point", "why_tests_cant": "zero is drawn with negligible probability, no test writes messages by hand, and the schedules and reachable states are all of them", "anchors": ["src/tools/hashing.rs: Hasher::chain", "src/curve/arithmetic.rs: Point (Serialize, Deserialize), Scalar::random", "src/protocols/key_init.rs: PublicData::hash", "src/protocols/key_refresh.rs: PublicData::hash", "src/protocols/interactive_signing.rs", "src/tools/sss.rs", "src/zk/elog.rs", "src/zk/enc_elg.rs", "src/zk/aff_g.rs"]}
{"id": "C94", "title": "Panics in executions over serialized messages have only the known causes", "statement": "In an execution over serialized messages, whatever bytes dishonest parties send and in whichever order messages arrive, no honest party of key generation, auxiliary info generation, key refresh or signing panics if the draws of the honest parties are not zero where this would give an identity point, and the messages of dishonest parties that can be read contain no identity point and no value of the kinds known to cause a panic (random strings of another length; moduli, bases or proofs out of shape; ciphertexts that are not invertible). In resharing the only remaining cause is that the constant terms of the polynomials do not interpolate to the expected key. In signing one more cause exists: a party that has sent zero for its `delta` makes honest parties panic in the round about the failure with any error message that can be read, instead of being blamed.", "quantifier": "all sets of parties, inputs and draws, all schedules and crash points, all data sent by dishonest parties (messages that can be read are restricted as stated, other data are not)", "why_tests_cant": "tests run with honest parties, in one order, and with messages that were serialized by the library", "anchors": ["src/protocols/key_init.rs", "src/protocols/aux_gen.rs", "src/protocols/key_refresh.rs", "src/protocols/key_resharing.rs", "src/protocols/interactive_signing.rs:InteractiveSigning", "src/curve/arithmetic.rs:Point::to_compressed_array", "src/zk/dec.rs:DecProof::verify", "src/tools/hashing.rs"]}
{"id": "C95", "title": "Random strings and bit challenges are exact and uniform", "statement": "Drawing a random string of n bits from the generator, and taking a challenge of n bits from the output of the hash, never panics, uses exactly ⌈n/8⌉ bytes and gives the first n bits of them, the most significant bit of each byte first. Every string of n bits comes from equally many byte strings. The joint random string of a session is the combination of the strings of all parties; whatever strings of the right length the others have contributed, every value of it is reached with exactly one contribution of any given party, so it is uniform if one party has drawn its string from uniform bytes.", "quantifier": "all lengths (multiples of eight or not), all bytes, all strings, all numbers of parties and all contributions of the others", "why_tests_cant": "uniformity is a statement about all byte strings at once; tests draw a few strings of one length", "anchors": ["src/tools/bitvec.rs:BitVec::random", "src/tools/bitvec.rs:BitVec::from_xof_reader", "src/tools/bitvec.rs:BitVec::bitxor_assign", "src/protocols/key_init.rs", "src/protocols/aux_gen.rs", "src/protocols/key_refresh.rs", "src/zk/prm.rs", "src/zk/dec.rs", "src/zk/aff_g_star.rs"]}
{"id": "C96", "title": "What the result of a session over serialized messages is worth", "statement": "Whatever bytes dishonest parties send and however the network orders, delays or drops packets, an honest party that finishes has a result it can use. Key generation: its own secret, the genuine public share of every honest party, whether that one finished or not, a key that is not the identity, and an accepted proof of knowledge for the public share of every other party. Auxiliary info: its own key, the genuine public data of every honest party, and public data of every other party that passed all checks. Key refresh: a change that its key share accepts, that keeps the key and the share's consistency, and auxiliary info with the same guarantees. Key resharing: a share over exactly the new holders that matches its public share. Signing: a valid, normalized signature of its own message under the group key with the right recovery id; and once it has received the round 1 broadcasts this signature is fixed, so that nothing the others send afterwards can change it, other than by preventing it, unless they guess a proof.", "quantifier": "all sets of honest parties, all packets of the others, all schedules, all draws and all hash functions", "why_tests_cant": "a test runs a few sessions with a few corrupted messages; the claim is about every packet sequence in every order, chosen adaptively", "anchors": ["src/protocols/key_init.rs", "src/protocols/aux_gen.rs", "src/protocols/key_refresh.rs", "src/protocols/key_resharing.rs", "src/protocols/interactive_signing.rs", "src/entities/full.rs:KeyShare::update"]}
{"id": "C97", "title": "Exactly which draws of honest signers make signing fail", "statement": "When two or more parties with a valid sharing of a key and consistent auxiliary info sign over serialized messages and all of them follow the protocol, they all finish with the same valid signature, under any schedule, if and only if no share of the key is zero and no scalar that belongs to a point in one of their messages is zero: the nonces, the ElGamal keys and their encryptions of the nonces, the masks of the proofs in rounds 1 to 3, and each party's additive share of key times nonce. No other draws make such a session fail.", "quantifier": "all numbers of parties, keys, sharings, messages, draws and schedules", "why_tests_cant": "each of these events has negligible probability for a 256-bit curve, so no test meets one, and no number of passing tests shows that the list is complete", "anchors": ["src/protocols/interactive_signing.rs:Round1", "src/protocols/interactive_signing.rs:Round2", "src/protocols/interactive_signing.rs:Round3", "src/curve/arithmetic.rs:Point", "src/zk/enc_elg.rs", "src/zk/elog.rs", "src/zk/aff_g.rs"]}
{"id": "C98", "title": "Evidence made of serialized messages convinces everyone and frames nobody", "statement": "In key generation, auxiliary info generation and key refresh over serialized messages: if an honest party refuses what it has received from j because of a fault in the protocol, then j is to blame, the party can present the serialized parts it has received, and whoever checks the declared ones can read them, does not panic and agrees. Nothing that an honest party has signed, however it is put together, convinces anyone that it is faulty.", "quantifier": "all parties, sets of honest parties, schedules, data sent by the others, points of time, refused messages and pieces of evidence", "why_tests_cant": "the evidence is checked by someone who sees only the serialized parts, in a different place of the code than the one that refused them; the two must agree for all data a dishonest party may send, also such that is read in an unusual way, and for all combinations of signed parts", "anchors": ["src/protocols/key_init.rs:verify_messages_constitute_error", "src/protocols/aux_gen.rs:verify_messages_constitute_error", "src/protocols/key_refresh.rs:verify_messages_constitute_error", "src/tools/protocol_shortcuts.rs:deserialize_all", "src/tools/hashing.rs"]}
{"id": "C99", "title": "Over any history of sessions with serialized messages and stored shares, the honest holders keep the key", "statement": "Take any history of dealing, key generation, refreshes, resharings, conversions, derivations, and storing shares or changes of shares and reading them back. In every session the parties that are not honest send any data they want as messages, and after every operation further parties may stop being honest or may not finish. As long as in resharings the accepted polynomials have at most as many coefficients as the new threshold says and the claimed share ids are distinct (which the code does not check), the honest holders agree on all public shares, each has the secret share that belongs to its public share, all report the verifying key that the key had all along, every signature that one of them ends with in an execution of signing over serialized messages is valid under it, and those who end with one end with the same one.", "quantifier": "all histories of any length, all sets of honest parties in each of the sessions, all data the others send, schedules and crash points, and all places where shares are stored", "why_tests_cant": "unbounded histories of sessions, each with an arbitrary adversary who is not bound to send anything that an honest party can serialize", "anchors": ["src/protocols/key_init.rs: KeyInit", "src/protocols/key_refresh.rs: KeyRefresh", "src/protocols/key_resharing.rs: KeyResharing", "src/entities/full.rs: KeyShare, KeyShareChange", "src/entities/threshold.rs: ThresholdKeyShare", "src/protocols/interactive_signing.rs: InteractiveSigning", "src/curve/arithmetic.rs: Serialize, Deserialize"]}
{"id": "C100", "title": "Auxiliary info from sessions with serialized messages is fit for signing, whatever the others sent", "statement": "Take auxiliary info from a session of its own protocol or of key refresh over serialized messages, possibly restricted to some of the parties, stored and read back, any number of times. In the sessions the parties that are not honest send any data. Then the honest parties hold the same public auxiliary info for exactly the parties it is for, all its moduli are odd and fit their types, the ring-Pedersen parameters are residues, each honest party has the primes of its own modulus, and what is stored is read back unchanged. Together with key shares of any history of C99 for the same parties, every honest party can start signing (its inputs are accepted and nothing panics), all of them take the same execution id, and in any execution over serialized messages every signature is valid under the key of the history, the same for all if the echo-broadcasts agree.", "quantifier": "all histories of sessions, restrictions and storage, all sets of honest parties, all data the others send, schedules and crash points, all messages and random draws", "why_tests_cant": "the moduli of dishonest parties are arbitrary data; a bad one that gets into the stored info would make a later, different protocol panic or sign wrongly", "anchors": ["src/protocols/aux_gen.rs: AuxGen", "src/protocols/key_refresh.rs: KeyRefresh", "src/entities/full.rs: AuxInfo, AuxInfo::subset, PublicAuxInfo", "src/protocols/interactive_signing.rs: InteractiveSigning::new, make_round", "src/paillier/ring_pedersen.rs: RPParamsWire"]}
{"id": "C101", "title": "Serialized evidence of signing convinces everyone who reads it and frames nobody", "statement": "At any time of any signing session over serialized messages, whatever data the dishonest signers send: if an honest party refuses the data of another one because of a protocol fault, that one is named as the offender, the honest party can present the serialized parts it received, and everyone with the same public inputs to whom it presents the declared ones can read them, does not panic when checking them, and agrees that they show the fault. No data that an honest party has signed convinces anyone that it is at fault. The full statement is false of the code for some faults (see C45, C46, C87); it is proved for the faults of rounds 2 and 4 except a wrong proof of the second multiplication (convincing), and for wrong sets of ids, round 2 proofs except those of the second multiplication, and wrong signature shares (no framing).", "quantifier": "all sets of honest signers, all schedules and crash points, all data the others send, all messages and random draws, all evidence that can be put together from signed data", "why_tests_cant": "evidence is checked by third parties on bytes chosen by the accused; a test tries a few malformed messages, and never all packages that an accuser can put together from signed parts", "anchors": ["src/protocols/interactive_signing.rs: InteractiveSigningError, verify_messages_constitute_error, required_messages, Round1-6 receive_message", "src/tools/hashing.rs: Chain, Hashable"]}
{"id": "C102", "title": "From key generation, refresh or resharing to a signature, all over serialized messages", "statement": "Two or more parties that follow the protocols and whose random values are not exceptional (no zero scalar has to be sent, and ECDSA has no exception) can generate a key, generate auxiliary info and sign a message with what these sessions returned, exchanging serialized messages: nothing panics, every session accepts what the sessions before it returned and finishes for everyone under any schedule, and all end with the same normalized signature, valid under the verifying key that all of them got. The same holds for holders of a key who refresh it, apply the change and sign with the new auxiliary info, under the same verifying key; and when enough holders of threshold shares reshare a key to new holders: any set of new holders that has the size of the new threshold can convert their shares, restrict their auxiliary info to themselves and sign, under the same verifying key.", "quantifier": "all numbers and names of parties, all thresholds, all subsets of signers, all messages, all schedules of the networks, all random draws except the named exceptional ones", "why_tests_cant": "a test runs each protocol, or one chain of protocols, with a few parties and one order of messages; that what one protocol returns is always acceptable to the next one is a statement about all of them", "anchors": ["src/protocols/key_init.rs: KeyInit", "src/protocols/aux_gen.rs: AuxGen", "src/protocols/key_refresh.rs: KeyRefresh", "src/protocols/key_resharing.rs: KeyResharing", "src/protocols/interactive_signing.rs: InteractiveSigning", "src/entities/full.rs: KeyShare::update, AuxInfo::subset", "src/entities/threshold.rs: ThresholdKeyShare::to_key_share"]}
{"id": "C103", "title": "Bounded secret integers leave no traces in memory", "statement": "In any sequence of operations on bounded secret integers (making, widening, negating, adding, multiplying, summing, taking absolute values, checking ranges, sampling, dropping), including operations that fail or panic, every operation ends with the bound and value (or the failure) that the same operation has on plain numbers, uses no memory that was given up, and never overwrites another secret; and all memory that does not hold a secret that still exists is zero, including intermediate results and what operations held when they failed.", "quantifier": "all sequences of operations, all integer widths, bounds and values, all random draws, with successes and failures in any order", "why_tests_cant": "tests do not look at memory that was given up, and the intermediate values of an operation cannot be observed through the API", "anchors": ["src/uint/secret_signed.rs: SecretSigned", "src/uint/secret_unsigned.rs: SecretUnsigned", "src/tools/secret.rs: Secret::init_with"]}
{"id": "C104", "title": "Paillier keys, encryption and decryption leave no traces in memory", "statement": "Whatever else is in memory, precomputing a Paillier secret key, dropping it, encrypting, decrypting, and making or deriving a randomizer end with exactly the right values in use and nothing else in use changed, and leave nothing about the key, the plaintext or the randomizer in memory that is not in use any more.", "quantifier": "all primes for which a key can be made, all moduli, plaintexts, randomizers and ciphertexts, all contents of the memory", "why_tests_cant": "tests do not look at memory that was given up, and the intermediate values of these functions cannot be observed through the API", "anchors": ["src/paillier/rsa.rs: SecretPrimes::new", "src/paillier/keys.rs: SecretKeyPaillier::new", "src/paillier/encryption.rs: new_with_randomizer_inner, decrypt, derive_randomizer, Randomizer::new"]}
{"id": "C105", "title": "Working modulo both primes leaves no traces in memory", "statement": "Whatever else is in memory, splitting a number into its remainders modulo both primes of a Paillier key, taking square roots and joining remainders end with exactly the right values and nothing in use changed, and leave nothing about the primes in memory that is not in use any more.", "quantifier": "all keys, all numbers and all remainders, with and without square roots, all contents of the memory", "why_tests_cant": "tests do not look at memory that was given up, and the intermediate values of these functions cannot be observed through the API", "anchors": ["src/paillier/keys.rs: rns_split, sqrt_part, rns_sqrt, rns_join", "src/paillier/rsa.rs: p_nonzero, q_nonzero"]}
{"id": "C106", "title": "Secret scalars leave no traces in memory when serialized or converted", "statement": "Whatever else is in memory, serializing and deserializing a secret scalar and converting it to and from a signed secret integer give exactly the right values, change nothing else in use, and leave nothing about the secret in memory that is not in use any more.", "quantifier": "all curve orders, scalars and integers, all contents of the memory", "why_tests_cant": "tests do not look at memory that was given up, and the copies made by the encoding cannot be observed through the API", "anchors": ["src/curve/arithmetic.rs: Scalar::to_be_bytes, try_from_be_bytes", "src/tools/secret.rs: serialize, deserialize", "src/params/conversion.rs: secret_signed_from_scalar, secret_scalar_from_signed, secret_scalar_from_wide_signed"]}
{"id": "C107", "title": "Splitting and joining secrets leaves nothing in memory", "statement": "Whatever else is in memory, splitting a secret scalar, additively or by a polynomial, and joining it again from the shares give exactly the right values, each in memory of its own, change nothing else in use, and leave nothing in memory that is not in use any more: not the secret, not the coefficients, not the shares, and no intermediate values. The same holds for dealing key shares and threshold key shares to parties and for updating, converting, resharing and refreshing a share.", "quantifier": "all moduli, secrets, draws, share IDs and coefficients, any number of parties and any threshold, all contents of the memory", "why_tests_cant": "tests do not look at memory that was given up, and would only try some numbers of shares", "anchors": ["src/curve/arithmetic.rs: secret_split", "src/tools/sss.rs: shamir_split, Polynomial::random, Polynomial::evaluate, shamir_join_scalars", "src/tools/secret.rs: Sum for Secret, AddAssign, Mul, Drop", "src/entities/full.rs: KeyShare::new_centralized, update", "src/entities/threshold.rs: ThresholdKeyShare::new_centralized", "src/entities/threshold.rs: to_key_share, from_key_share", "src/protocols/key_resharing.rs: Round1 finalize", "src/protocols/key_refresh.rs: Round3 finalize"]}
