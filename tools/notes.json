{
 "C02": {
  "status": "partial",
  "note": "Every constructor declares a truthful bound except SecretSigned::new_positive, which accepts a value one bit longer than the bound it declares; the exception is proved with a witness."
 },
 "C05": {
  "note": "Round trips proved; the encoding is not canonical, which is proved with a witness."
 },
 "C06": {
  "note": "Round trips proved; padding bits are ignored on decoding, proved with a witness."
 },
 "C10": {
  "status": "partial",
  "note": "Perfect secrecy is false because the higher coefficients are drawn non-zero (proved with a witness); what is proved is that every secret remains possible for polynomials with arbitrary coefficients. C10_statistically_hiding_partial bounds what is revealed: two secrets are told apart with advantage at most (t-1)/(q-1)."
 },
 "C12": {
  "note": "Also proved: with no signing key supplied a zero secret may be drawn, and verifying_key then panics."
 },
 "C13": {
  "note": "Also proved: threshold 0 is accepted but yields unusable shares; debug builds convert exactly threshold many holders."
 },
 "C50": {
  "status": "partial",
  "note": "Invertibility and bit length proved for every hash output; the documented range [0, N) is false of the code, proved with a witness."
 },
 "C19": {
  "note": "Correctness for every plaintext and randomizer; key validity follows from distinct same-size odd primes; equal primes make key generation panic (proved)."
 },
 "C20": {
  "note": "Proved for all unit ciphertexts; non-unit ciphertexts (which can arrive from the wire) make negation and multiplication panic, proved."
 },
 "C32": {
  "status": "partial",
  "note": "Completeness proved; that an accepted proof answers every challenge bit is false (the verifier never compares list lengths, so the empty proof is accepted; also all-zero bases are accepted), proved with witnesses; for full-length proofs special soundness is proved."
 },
 "C33": {
  "status": "partial",
  "note": "Completeness and answerability of every challenge proved; that an accepted proof answers every challenge is false (list lengths are never compared, so the empty proof is accepted), proved with a witness; for full-length proofs non-Blum moduli are caught except with a counted fraction of challenges."
 },
 "C34": {
  "note": "All nine proofs. Also proved: dec does not hash the number of parties, so an accepted proof stays accepted for a larger number."
 },
 "C53": {
  "status": "partial",
  "note": "False of the code: with a zero committed ciphertext and a zero masked randomizer the Paillier equation is trivially true, so proofs are forged for arbitrary ciphertexts (forgeries and negations proved for all four proofs). With invertible commitments special soundness is proved, in full for aff-g* and dec."
 },
 "C35": {
  "status": "partial",
  "note": "Proved for enc-elg, aff-g, aff-g* and dec for every self-consistent set and for all proofs for the shipped sets. For fac the self-consistency check is one bit too weak: proved that the honest prover then never returns."
 },
 "C45": {
  "status": "partial",
  "note": "Key generation, auxiliary info generation and key refresh: every rejection is confirmed by the third-party check, every acceptance is not. Resharing: the check is not implemented in the code. Signing: proved for rounds 2 and 4 except the second multiplication proof; false of the code for round 1, the elog proof of round 3 and most errors of the error rounds (negations proved with runs as witnesses: C45_signing_round1_undetected, C45_signing_elog_undetected, C45_signing_no_evidence, C45_signing_star_panics). A missing second multiplication proof is attributed to nobody (C45_signing_hat_ids_unattributed)."
 },
 "C46": {
  "status": "partial",
  "note": "Key generation, auxiliary info generation and key refresh (in key refresh the check of a share change relies on the session layer for the addressee of a direct message; proved). Signing: proved for wrong ids, the first multiplication proof (C46_signing_multiplication_partial) and elog proofs of round 2 and for round 4; false of the code for round 1, the second multiplication proof of round 2, the elog proof of round 3 and the decryption proof of the error round: messages of parties that follow the protocol are accepted as evidence against them (C46_signing_round1_framing, C46_signing_hat_framing, C46_signing_elog_framing, C46_signing_dec_framing)."
 },
 "C47": {
  "status": "partial",
  "note": "False of the code. Key generation: the only panic is a round 2 random string of the wrong length, and peers can always cause it (both proved). Auxiliary info: a complete list of causes, and proofs that a single peer can panic everyone by an even modulus, a random string of the wrong length, zero ring-Pedersen bases (which pass their proof) or a zero commitment in the factoring proof. Key refresh: the same four ways as auxiliary info generation, and no others. Signing: in all rounds, including the error rounds, a party with well-formed inputs panics only on a ciphertext that is not invertible (proved), and a single peer can cause this with a zero ciphertext in round 1 or round 2, forging the proofs of round 1 (both proved). Resharing: the complete list of causes is a polynomial with one coefficient, a threshold of at most one for an old holder, and constant terms that do not interpolate to the expected key; any single contributor can cause the first and, with a message that passes every check, the last (all proved). The identity point in a message is a further cause, see C58."
 },
 "C48": {
  "note": "For every round of every protocol (they share one collection procedure), and for key generation, auxiliary info generation and signing end to end."
 },
 "C39": {
  "note": "Proved for all old/new holder sets, contributor sets of at least the old threshold and 2 <= new threshold <= number of new holders; with new threshold 0 or 1, which the constructor accepts, every honest new holder panics (C39_threshold_one_panics); with one above the number of new holders everybody finishes and the key is lost (C39_threshold_too_large); with too few old holders every honest new holder panics (C39_too_few_old_holders)."
 },
 "C40": {
  "status": "partial",
  "note": "Own share consistent with public shares and agreement between finishing parties proved for all messages. Key and threshold preservation proved when claimed share ids are distinct and polynomials have at most the agreed length; the code checks neither, and both omissions are proved exploitable with witnesses. One-coefficient polynomials make the receiver panic (C47_resharing_remote_panic)."
 },
 "C49": {
  "status": "partial",
  "note": "Proved for key initialization, auxiliary info, key refresh and signing. Resharing only rejects parties without a role and key shares that do not list their owner; that it accepts foreign inputs, and that an unlisted old holder ends with an unusable share, is proved with witnesses."
 },
 "C52": {
  "status": "partial",
  "note": "Proved: honest parties survive the error rounds, and an error round implies a false statement by some party. That the culprit is always identified is false of the code: the decryption proof accepts any value, so a party announcing a wrong share in round 3 is never found (proved). Also, the aff-g* proofs made for a party are not checked by that party, so with two signers none is (C52_own_star_unchecked)."
 },
 "C56": {
  "status": "partial",
  "note": "Proved for every error of key initialization, auxiliary info generation and key refresh, and for every error of signing except a failed aff-g* proof of round 6, whose check reads an undeclared message (negation proved). For key resharing the code has no evidence checks (unimplemented)."
 },
 "C58": {
  "status": "partial",
  "note": "Proved for scalars, and for every point except the identity. False for the identity: it is accepted on the wire, and serializing or hashing it panics; a peer can crash receivers in key generation, key refresh and signing with it, and a party refreshing alone crashes itself (all proved). That the identity is encoded as one zero byte and accepted is an assumption about the sec1 crate, stated as Spec.Sec1Laws."
 },
 "C59": {
  "note": "With debug assertions compiled in, a zero challenge panics (C59_zero_challenge_panics); release builds accept it."
 },
 "C60": {
  "note": "Draws are assumed uniform; the challenge is given instead of hashed (for mod: uniform among the invertible residues)."
 },
 "C62": {
  "status": "partial",
  "note": "Proved if the signers also agree about the points S of round 3, and the accepted proofs about Delta have true statements. Without this it is false of the code: S is not echoed and nothing is proved about it in round 3, so one signer can split the others between round 4 and an error round, where nobody finishes and nobody is blamed (C62_signers_split)."
 },
 "C63": {
  "status": "partial",
  "note": "Proved for key generation, resharing, auxiliary info and key refresh, and for rounds 1 to 4 of signing. False of the error rounds of signing: the ciphertexts D of round 2 are not echoed, so a third signer can equivocate and lead an honest signer to accuse another honest one (C63_honest_signer_blamed). In the error rounds the only wrong accusation is the one about the decryption proof (C63_signing_error_round_partial)."
 },
 "C64": {
  "status": "partial",
  "note": "Proved for the message parts of key generation, auxiliary info, key refresh and signing, for the order of rounds in all protocols and for the communication in resharing. False of resharing, where evidence about a message part panics (C64_resharing_parts), and of the siblings declared by the rounds of signing (C64_siblings_not_mutual)."
 },
 "C66": {
  "status": "partial",
  "note": "Proved: the message is used last (C66_message_used_last), a share for another message is rejected (C66_share_rejected) and no signature comes out (C66_no_signature), if the nonce share of the peer and the combined nonce point are not zero. That no honest signer is held guilty is false of the code: the evidence is accepted by everyone who was told another message than the accused (C66_evidence_depends_on_message)."
 },
 "C67": {
  "status": "partial",
  "note": "Proved: when a check can panic at all. Key generation: exactly for strings of different lengths (C67_key_init_partial). Auxiliary info and refresh: only for even or too large moduli, strings of different lengths, ill-formed ring-Pedersen parameters or non-invertible commitments. Signing: with well-formed auxiliary data never for rounds 1, 3 and 4, otherwise only for non-invertible ciphertexts or a failed aff-g* proof. The full property is false of the code: C67_aux_gen_panics, C67_refresh_panics, C67_signing_panics, C45_signing_star_panics, C67_resharing_panics."
 },
 "C68": {
  "status": "partial",
  "note": "Proved for different primes: full size, 3 mod 4, exact length of the modulus, key construction succeeds, exponent and masks in range without a panic, powers of the base run once through the invertible squares if the base is 1 modulo neither prime, and the draws satisfy what C54 assumes. False of the code without that: if the search returns the same prime twice, making the key panics (C68_equal_primes_panic). That the search returns primes of the promised form is an assumption about the crypto-primes crate."
 },
 "C69": {
  "status": "partial",
  "note": "Proved: for an encrypted value of at most L+EPS bits, which is what the accompanying proof is meant to establish, the answers for two secrets are at most 2^-L apart. False of the code: since that proof can be forged, a dishonest signer that sends an encryption of 2^LP reads the shares of all the others, hence the key, exactly and in every run (C69_key_revealed, with an explicit program for the dishonest signer). The computational parts of the answer (encryption under the sender's own key, proof) are outside; for the proof see C60."
 },
 "C70": {
  "status": "partial",
  "note": "Proved: if s is a power of the invertible t, as for all honestly made parameters, the commitments to any two values are at most 2^-L apart. False of the code: since an empty prm proof is accepted, a dishonest party can publish the parameters m^2, 1+m, 1; it then reads the Paillier primes of all the others in the generation of auxiliary info (C70_primes_revealed: nobody notices and all finish with usable auxiliary info; C70_refresh_primes_revealed: the same in key refresh) and their nonce shares and key shares, hence the key, in any signing session (C70_key_revealed)."
 },
 "C72": {
  "status": "partial",
  "note": "Proved: results of protocols, entry points and the sessions of key generation and resharing print their public parts only. False of the code for sessions that hold the expanded Paillier key (signing, auxiliary info generation, key refresh): their output shows both primes, because the Montgomery parameters modulo the primes are not wrapped in Secret."
 },
 "C75": {
  "note": "Independence of the sharing is proved. Composition of paths and secrecy of the parent are false of the code (negations proved); the partial theorem shows composition when the chain code is carried on."
 },
 "C77": {
  "note": "Round trips are proved for auxiliary info and for shares without an identity among the public shares. Storing a share with one panics, and inconsistent shares and useless primes are loaded without complaint (negations proved)."
 },
 "C79": {
  "note": "Proved for arithmetic, range checks, constructors, widening, conversion from scalars, exponentiation, commitments, encryption and recovery of randomizers. False for decryption, conversion to scalars, square roots modulo the primes and loading of keys; for these it is proved exactly what the steps tell."
 },
 "C83": {
  "status": "partial",
  "note": "Proved for key generation, resharing, auxiliary info and key refresh, and for rounds 1 to 4 of signing, for all executions. False of the error rounds of signing: C83_honest_signer_blamed constructs an execution with working echo broadcasts in which an honest signer accuses an honest one. The decryption proof of an error round is the only reason for a wrong accusation (C83_signing_error_round_partial)."
 },
 "C84": {
  "status": "partial",
  "note": "Proved for all executions in which the values S of round 3 agree too and the accepted proofs about Delta are about true statements. False without the former, because S is not part of an echo broadcast: C84_signers_stuck constructs an execution with working echo broadcasts from which no continuation lets any honest signer complete another round."
 },
 "C85": {
  "status": "partial",
  "note": "False of the code: in each of the five protocols any party that is not honest can make any honest party panic (C85_*_panic construct the executions). Proved for all executions in which the parties that are not honest send none of the messages known to do this; for resharing what remains then is a key different from the expected one."
 },
 "C86": {
  "note": "Key generation, auxiliary info generation and key refresh. The restriction on direct messages is needed: C46_refresh_needs_addressee."
 },
 "C87": {
  "status": "partial",
  "note": "Proved for round 2 (except the second multiplication proof), round 4 and, for framing, the sets of ids of the error rounds. False of the code for the other proofs: C87_signing_elog_framed and C87_signing_hat_framed show that messages signed by honest parties convict them in executions of honest parties; see C45 and C46 for the remaining errors."
 },
 "C88": {
  "note": "The condition on the messages of resharings is part of the statement; C88_longer_polynomials and C88_shared_ids show that neither half can be dropped."
 },
 "C89": {
  "status": "partial",
  "note": "The values are right for all operations. That nothing is left in memory is proved for all operations but neg and to_montgomery, and is false for these two: C89_neg_leaves_copy, C89_montgomery_leaves_copy. The encoding of the wrapped types is a parameter here; for scalars it makes copies of its own, see C106."
 },
 "C90": {
  "status": "partial",
  "note": "Proved for all messages without identity points; a message with one cannot be serialized: C90_identity_not_sent. Auxiliary info generation has no points and is complete (C90_aux_gen_sent). For resharing only the encodings are covered; its messages have no integers that could be too large."
 },
 "C91": {
  "status": "partial",
  "note": "Refinement, agreement and blame for all protocols; for signing blame is as far as C83 goes. Termination is proved for auxiliary info generation, and for key generation if no party has drawn zero (false otherwise: C91_key_init_zero). For termination of refresh, resharing and signing see C92."
 },
 "C92": {
  "note": "That hashing panics only because of identity points is an assumption (`PanicsOnly`); where it does so is a parameter. Auxiliary info generation sends no points, see C91_aux_gen_finishes."
 },
 "C93": {
  "note": "Simplified: a party whose own messages contain a hashed identity panics at its first step of the round, and a receiver panics even if a check that precedes the hashing fails (Model/HashPoints). Resharing and auxiliary info generation hash no points."
 },
 "C94": {
  "note": "The kinds of harmful messages are those of C85. In signing it is assumed of the honest parties' messages that they contain no identity point and no zero `delta`, as these depend on the draws of all parties."
 },
 "C95": {
  "note": "Uniformity is stated as a count of preimages; that the generator and the hash give uniform bytes is outside the model."
 },
 "C96": {
  "note": "Guarantees of single runs, lifted to all executions over serialized messages. That accepted proofs come from provers who know a witness is not part of the statement (see the soundness properties of the proofs)."
 },
 "C97": {
  "note": "Complete characterization for honest signers. The joint nonces, r, s and the key are assumed not to be zero, as in C41; the masks of the range proofs are assumed to keep away from the ends of their intervals."
 },
 "C98": {
  "note": "Key generation, auxiliary info generation and key refresh. As in C86, for parameters where that is necessary the moduli an honest party has read are assumed not to be larger than the honest ones and its draws to be valid. The check of evidence can be made to panic by dishonest evidence (C98_check_crash)."
 },
 "C99": {
  "note": "The auxiliary info used in signing is assumed to fit the parameters; C100 shows that the auxiliary info sessions end with does. The form of messages in resharings is a hypothesis, as in C88 (the code does not check it, C88_longer_polynomials, C88_shared_ids)."
 },
 "C100": {
  "note": "`C100_sign` assumes that the integers moduli are kept in have no more bits than a modulus, which holds for all parameter sets of the code (example beside the theorem). As in C91, agreement is about sessions whose echo-broadcasts agree and hashes without collisions."
 },
 "C101": {
  "note": "The full statement is false of the code: `C46_signing_hat_framing`, `C101_signing_hat_framed`, `C101_signing_elog_framed`, `C46_signing_round1_framing`, `C46_signing_dec_framing`, `C45_signing_round1_undetected`, `C45_signing_elog_undetected`, `C45_signing_no_evidence`, `C45_signing_star_panics`. Proved for all errors for which C87 has it."
 },
 "C102": {
  "note": "In the resharing theorem the auxiliary info of the new holders is any that they can use (`UsableAux`, which is what C91 and C54 say of a session of auxiliary info generation), and the condition that no share is zero is on the shares that the session returned."
 },
 "C103": {
  "note": "Partial because the full property is false of `&`, `new_modulo`, `assert_exponent_range` and `ensure_exponent_range` (`C103_traces`); what they leave is proved for every state. Memory used inside the arithmetic of the integers, and copies made by the compiler when values are moved, are not modelled."
 },
 "C104": {
  "note": "Partial because that nothing is left is false (`C104_factors_left`, `C104_encrypt`, `C104_decrypt`); the theorems say exactly what is left, for all inputs. It is true of `derive_randomizer`. Executions that panic, memory used inside the libraries, copies made by the compiler when values are moved, and parameters inside Montgomery forms are not modelled."
 },
 "C105": {
  "note": "Partial because that nothing is left is false (`C105_split_reveals_factors`, `C105_join_reveals_factors`); the theorems say exactly what is left, for all keys and numbers. Memory used inside the libraries, copies made by the compiler when values are moved, and parameters inside Montgomery forms are not modelled."
 },
 "C106": {
  "note": "Partial because that nothing is left is false (`C106_scalar_left`); the theorems say exactly what is left, for all inputs. Memory used inside the libraries, copies made by the compiler when values are moved, and bytes of the wrong length are not modelled."
 },
 "C107": {
  "note": "Memory used inside the libraries, copies made by the compiler when values are moved, and the map that holds the shares are not modelled."
 }
}