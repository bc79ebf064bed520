{
 "claims": [
  {
   "property": "C01",
   "status": "proved",
   "theorems": [
    "Synedrion.Props.C01_signed_expression_exact",
    "Synedrion.Props.C01_add_refines",
    "Synedrion.Props.C01_sub_refines",
    "Synedrion.Props.C01_mul_refines",
    "Synedrion.Props.C01_addPublic_refines",
    "Synedrion.Props.C01_mulPublic_refines",
    "Synedrion.Props.C01_neg_refines",
    "Synedrion.Props.C01_to_public_exact",
    "Synedrion.Props.C01_widening_exact",
    "Synedrion.Props.C01_mulWide_exact",
    "Synedrion.Props.C01_sum_exact",
    "Synedrion.Props.C01_sum_refines",
    "Synedrion.Props.C01_sum_fits",
    "Synedrion.Props.C01_add_mod_exact"
   ],
   "note": ""
  },
  {
   "property": "C02",
   "status": "partial",
   "theorems": [
    "Synedrion.Props.C02_constructors_truthful_partial",
    "Synedrion.Props.C02_constructors_accept_iff",
    "Synedrion.Props.C02_new_positive_bound_untruthful"
   ],
   "note": "Every constructor declares a truthful bound except SecretSigned::new_positive, which accepts a value one bit longer than the bound it declares; the exception is proved with a witness."
  },
  {
   "property": "C03",
   "status": "proved",
   "theorems": [
    "Synedrion.Props.C03_public_range_check_exact",
    "Synedrion.Props.C03_secret_range_check_exact",
    "Synedrion.Props.C03_assert_and_ensure"
   ],
   "note": ""
  },
  {
   "property": "C04",
   "status": "proved",
   "theorems": [
    "Synedrion.Props.C04_sampling_bijective",
    "Synedrion.Props.C04_xof_bijective",
    "Synedrion.Props.C04_sampling_guard",
    "Synedrion.Props.C04_scaled_sampling_bijective"
   ],
   "note": ""
  },
  {
   "property": "C05",
   "status": "proved",
   "theorems": [
    "Synedrion.Props.C05_signed_round_trip",
    "Synedrion.Props.C05_signed_decode_sound",
    "Synedrion.Props.C05_signed_decode_accepts_iff",
    "Synedrion.Props.C05_uint_round_trip",
    "Synedrion.Props.C05_signed_encoding_not_canonical"
   ],
   "note": "Round trips proved; the encoding is not canonical, which is proved with a witness."
  },
  {
   "property": "C06",
   "status": "proved",
   "theorems": [
    "Synedrion.Props.C06_bitvec_round_trip",
    "Synedrion.Props.C06_bitvec_decode_total",
    "Synedrion.Props.C06_bitvec_encoding_not_canonical"
   ],
   "note": "Round trips proved; padding bits are ignored on decoding, proved with a witness."
  },
  {
   "property": "C07",
   "status": "proved",
   "theorems": [
    "Synedrion.Props.C07_integer_to_scalar_is_residue",
    "Synedrion.Props.C07_public_from_scalar",
    "Synedrion.Props.C07_secret_from_scalar",
    "Synedrion.Props.C07_round_trip"
   ],
   "note": ""
  },
  {
   "property": "C08",
   "status": "proved",
   "theorems": [
    "Synedrion.Props.C08_transcript_injective",
    "Synedrion.Props.C08_transcript_prefix_injective"
   ],
   "note": ""
  },
  {
   "property": "C09",
   "status": "proved",
   "theorems": [
    "Synedrion.Props.C09_threshold_shares_reconstruct",
    "Synedrion.Props.C09_join_returns_constant_term",
    "Synedrion.Props.C09_public_evaluation"
   ],
   "note": ""
  },
  {
   "property": "C10",
   "status": "partial",
   "theorems": [
    "Synedrion.Props.C10_not_perfectly_hiding",
    "Synedrion.Props.C10_shares_below_threshold_partial",
    "Synedrion.Props.C10_statistically_hiding_partial"
   ],
   "note": "Perfect secrecy is false because the higher coefficients are drawn non-zero (proved with a witness); what is proved is that every secret remains possible for polynomials with arbitrary coefficients. C10_statistically_hiding_partial bounds what is revealed: two secrets are told apart with advantage at most (t-1)/(q-1)."
  },
  {
   "property": "C11",
   "status": "proved",
   "theorems": [
    "Synedrion.Props.C11_additive_split",
    "Synedrion.Props.C11_all_but_one_part_hide"
   ],
   "note": ""
  },
  {
   "property": "C12",
   "status": "proved",
   "theorems": [
    "Synedrion.Props.C12_centralized_shares_consistent",
    "Synedrion.Props.C12_zero_key_panics"
   ],
   "note": "Also proved: with no signing key supplied a zero secret may be drawn, and verifying_key then panics."
  },
  {
   "property": "C13",
   "status": "proved",
   "theorems": [
    "Synedrion.Props.C13_centralized_threshold_sharing",
    "Synedrion.Props.C13_threshold_to_full",
    "Synedrion.Props.C13_zero_threshold_unusable"
   ],
   "note": "Also proved: threshold 0 is accepted but yields unusable shares; debug builds convert exactly threshold many holders."
  },
  {
   "property": "C14",
   "status": "proved",
   "theorems": [
    "Synedrion.Props.C14_round_trip",
    "Synedrion.Props.C14_full_to_threshold"
   ],
   "note": ""
  },
  {
   "property": "C15",
   "status": "proved",
   "theorems": [
    "Synedrion.Props.C15_refresh_history"
   ],
   "note": ""
  },
  {
   "property": "C16",
   "status": "proved",
   "theorems": [
    "Synedrion.Props.C16_update_decision"
   ],
   "note": ""
  },
  {
   "property": "C17",
   "status": "proved",
   "theorems": [
    "Synedrion.Props.C17_error_kinds",
    "Synedrion.Props.C17_succeeds_iff",
    "Synedrion.Props.C17_bip32_commutes"
   ],
   "note": ""
  },
  {
   "property": "C18",
   "status": "proved",
   "theorems": [
    "Synedrion.Props.C18_subset_exact",
    "Synedrion.Props.C18_centralized_aux_consistent"
   ],
   "note": ""
  },
  {
   "property": "C19",
   "status": "proved",
   "theorems": [
    "Synedrion.Props.C19_same_size_primes_valid",
    "Synedrion.Props.C19_key_generation",
    "Synedrion.Props.C19_equal_primes_panic",
    "Synedrion.Props.C19_decrypt_encrypt"
   ],
   "note": "Correctness for every plaintext and randomizer; key validity follows from distinct same-size odd primes; equal primes make key generation panic (proved)."
  },
  {
   "property": "C20",
   "status": "proved",
   "theorems": [
    "Synedrion.Props.C20_homomorphisms",
    "Synedrion.Props.C20_exact_ciphertexts",
    "Synedrion.Props.C20_non_unit_panics"
   ],
   "note": "Proved for all unit ciphertexts; non-unit ciphertexts (which can arrive from the wire) make negation and multiplication panic, proved."
  },
  {
   "property": "C21",
   "status": "proved",
   "theorems": [
    "Synedrion.Props.C21_randomizer_recovery"
   ],
   "note": ""
  },
  {
   "property": "C22",
   "status": "proved",
   "theorems": [
    "Synedrion.Props.C22_split_join",
    "Synedrion.Props.C22_square_roots"
   ],
   "note": ""
  },
  {
   "property": "C23",
   "status": "proved",
   "theorems": [
    "Synedrion.Props.C23_nonsquare_jacobi",
    "Synedrion.Props.C23_nonsquare_uniform"
   ],
   "note": ""
  },
  {
   "property": "C24",
   "status": "proved",
   "theorems": [
    "Synedrion.Props.C24_commitments_homomorphic",
    "Synedrion.Props.C24_wire_round_trip",
    "Synedrion.Props.C24_generated_parameters"
   ],
   "note": ""
  },
  {
   "property": "C25",
   "status": "proved",
   "theorems": [
    "Synedrion.Props.C25_complete",
    "Synedrion.Props.C25_accepts_iff",
    "Synedrion.Props.C25_special_soundness"
   ],
   "note": ""
  },
  {
   "property": "C26",
   "status": "proved",
   "theorems": [
    "Synedrion.Props.C26_accepts_iff",
    "Synedrion.Props.C26_complete",
    "Synedrion.Props.C26_special_soundness"
   ],
   "note": ""
  },
  {
   "property": "C27",
   "status": "proved",
   "theorems": [
    "Synedrion.Props.C27_honest",
    "Synedrion.Props.C27_inner_mask_accepted",
    "Synedrion.Props.C27_accepted",
    "Synedrion.Props.C27_out_of_range_rejected"
   ],
   "note": ""
  },
  {
   "property": "C28",
   "status": "proved",
   "theorems": [
    "Synedrion.Props.C28_honest",
    "Synedrion.Props.C28_inner_masks_accepted",
    "Synedrion.Props.C28_out_of_range_rejected",
    "Synedrion.Props.C28_accepted"
   ],
   "note": ""
  },
  {
   "property": "C29",
   "status": "proved",
   "theorems": [
    "Synedrion.Props.C29_honest",
    "Synedrion.Props.C29_wrong_count_rejected",
    "Synedrion.Props.C29_accepted"
   ],
   "note": ""
  },
  {
   "property": "C30",
   "status": "proved",
   "theorems": [
    "Synedrion.Props.C30_interval_width",
    "Synedrion.Props.C30_single_party_panics",
    "Synedrion.Props.C30_honest",
    "Synedrion.Props.C30_responses_fit",
    "Synedrion.Props.C30_wrong_count_rejected",
    "Synedrion.Props.C30_accepted"
   ],
   "note": ""
  },
  {
   "property": "C31",
   "status": "proved",
   "theorems": [
    "Synedrion.Props.C31_honest",
    "Synedrion.Props.C31_inner_masks_accepted",
    "Synedrion.Props.C31_decision",
    "Synedrion.Props.C31_out_of_range_rejected"
   ],
   "note": ""
  },
  {
   "property": "C32",
   "status": "partial",
   "theorems": [
    "Synedrion.Props.C32_complete",
    "Synedrion.Props.C32_empty_proof_accepted",
    "Synedrion.Props.C32_not_every_bit_answered",
    "Synedrion.Props.C32_zero_bases_accepted",
    "Synedrion.Props.C32_full_length_partial",
    "Synedrion.Props.C32_special_soundness_partial"
   ],
   "note": "Completeness proved; that an accepted proof answers every challenge bit is false (the verifier never compares list lengths, so the empty proof is accepted; also all-zero bases are accepted), proved with witnesses; for full-length proofs special soundness is proved."
  },
  {
   "property": "C33",
   "status": "partial",
   "theorems": [
    "Synedrion.Props.C33_every_challenge_answerable",
    "Synedrion.Props.C33_complete",
    "Synedrion.Props.C33_empty_proof_accepted",
    "Synedrion.Props.C33_not_every_challenge_answered",
    "Synedrion.Props.C33_full_length_partial",
    "Synedrion.Props.C33_non_blum_caught_partial"
   ],
   "note": "Completeness and answerability of every challenge proved; that an accepted proof answers every challenge is false (list lengths are never compared, so the empty proof is accepted), proved with a witness; for full-length proofs non-Blum moduli are caught except with a counted fraction of challenges."
  },
  {
   "property": "C34",
   "status": "proved",
   "theorems": [
    "Synedrion.Props.C34_sch_rejected",
    "Synedrion.Props.C34_sch_bound",
    "Synedrion.Props.C34_elog_rejected",
    "Synedrion.Props.C34_elog_bound",
    "Synedrion.Props.C34_enc_elg_rejected",
    "Synedrion.Props.C34_enc_elg_bound",
    "Synedrion.Props.C34_aff_g_rejected",
    "Synedrion.Props.C34_aff_g_bound",
    "Synedrion.Props.C34_aff_g_star_rejected",
    "Synedrion.Props.C34_aff_g_star_bound",
    "Synedrion.Props.C34_dec_rejected",
    "Synedrion.Props.C34_dec_bound",
    "Synedrion.Props.C34_dec_parties_not_bound",
    "Synedrion.Props.C34_fac_rejected",
    "Synedrion.Props.C34_fac_bound",
    "Synedrion.Props.C34_prm_rejected",
    "Synedrion.Props.C34_prm_bound",
    "Synedrion.Props.C34_mod_rejected",
    "Synedrion.Props.C34_mod_bound"
   ],
   "note": "All nine proofs. Also proved: dec does not hash the number of parties, so an accepted proof stays accepted for a larger number."
  },
  {
   "property": "C35",
   "status": "partial",
   "theorems": [
    "Synedrion.Props.C35_shipped_consistent",
    "Synedrion.Props.C35_bounds_exact",
    "Synedrion.Props.C35_enc_elg_no_overflow",
    "Synedrion.Props.C35_aff_g_no_overflow",
    "Synedrion.Props.C35_aff_g_star_no_overflow",
    "Synedrion.Props.C35_dec_no_overflow",
    "Synedrion.Props.C35_dec_shipped_no_overflow",
    "Synedrion.Props.C35_fac_no_overflow_partial",
    "Synedrion.Props.C35_fac_shipped_no_overflow",
    "Synedrion.Props.C35_fac_edge_panics",
    "Synedrion.Props.C35_edge_is_consistent"
   ],
   "note": "Proved for enc-elg, aff-g, aff-g* and dec for every self-consistent set and for all proofs for the shipped sets. For fac the self-consistency check is one bit too weak: proved that the honest prover then never returns."
  },
  {
   "property": "C36",
   "status": "proved",
   "theorems": [
    "Synedrion.Props.C36_honest_keygen"
   ],
   "note": ""
  },
  {
   "property": "C37",
   "status": "proved",
   "theorems": [
    "Synedrion.Props.C37_finishing_party"
   ],
   "note": ""
  },
  {
   "property": "C38",
   "status": "proved",
   "theorems": [
    "Synedrion.Props.C38_start",
    "Synedrion.Props.C38_honest_refresh",
    "Synedrion.Props.C38_finishing_party",
    "Synedrion.Props.C38_update",
    "Synedrion.Props.C38_agreement"
   ],
   "note": ""
  },
  {
   "property": "C39",
   "status": "proved",
   "theorems": [
    "Synedrion.Props.C39_honest_resharing",
    "Synedrion.Props.C39_threshold_too_large",
    "Synedrion.Props.C39_too_few_old_holders",
    "Synedrion.Props.C39_threshold_one_panics"
   ],
   "note": "Proved for all old/new holder sets, contributor sets of at least the old threshold and 2 <= new threshold <= number of new holders; with new threshold 0 or 1, which the constructor accepts, every honest new holder panics (C39_threshold_one_panics); with one above the number of new holders everybody finishes and the key is lost (C39_threshold_too_large); with too few old holders every honest new holder panics (C39_too_few_old_holders)."
  },
  {
   "property": "C40",
   "status": "partial",
   "theorems": [
    "Synedrion.Props.C40_own_share_consistent",
    "Synedrion.Props.C40_public_shares_agree",
    "Synedrion.Props.C40_key_and_threshold_partial",
    "Synedrion.Props.C40_degree_not_enforced",
    "Synedrion.Props.C40_duplicate_share_ids"
   ],
   "note": "Own share consistent with public shares and agreement between finishing parties proved for all messages. Key and threshold preservation proved when claimed share ids are distinct and polynomials have at most the agreed length; the code checks neither, and both omissions are proved exploitable with witnesses. One-coefficient polynomials make the receiver panic (C47_resharing_remote_panic)."
  },
  {
   "property": "C41",
   "status": "proved",
   "theorems": [
    "Synedrion.Props.C41_honest_signature",
    "Synedrion.Props.C41_honest_no_blame",
    "Synedrion.Props.C41_honest_start"
   ],
   "note": ""
  },
  {
   "property": "C42",
   "status": "proved",
   "theorems": [
    "Synedrion.Props.C42_output_valid",
    "Synedrion.Props.C42_signature_not_lost"
   ],
   "note": ""
  },
  {
   "property": "C43",
   "status": "proved",
   "theorems": [
    "Synedrion.Props.C43_mta_exact"
   ],
   "note": ""
  },
  {
   "property": "C44",
   "status": "proved",
   "theorems": [
    "Synedrion.Props.C44_signature_valid",
    "Synedrion.Props.C44_valid_accepted",
    "Synedrion.Props.C44_recovery_id_unique"
   ],
   "note": ""
  },
  {
   "property": "C45",
   "status": "partial",
   "theorems": [
    "Synedrion.Props.C45_aux_gen_round2",
    "Synedrion.Props.C45_aux_gen_round3",
    "Synedrion.Props.C45_key_init_round2",
    "Synedrion.Props.C45_key_init_round3",
    "Synedrion.Props.C45_refresh_round2",
    "Synedrion.Props.C45_refresh_round3",
    "Synedrion.Props.C45_resharing_unverifiable",
    "Synedrion.Props.C45_single_fault_blamed",
    "Synedrion.Props.C45_signing_round2_partial",
    "Synedrion.Props.C45_signing_round4",
    "Synedrion.Props.C45_signing_elog_undetected",
    "Synedrion.Props.C45_signing_no_evidence",
    "Synedrion.Props.C45_signing_star_panics",
    "Synedrion.Props.C45_signing_round1_undetected",
    "Synedrion.Props.C45_signing_hat_ids_unattributed"
   ],
   "note": "Key generation, auxiliary info generation and key refresh: every rejection is confirmed by the third-party check, every acceptance is not. Resharing: the check is not implemented in the code. Signing: proved for rounds 2 and 4 except the second multiplication proof; false of the code for round 1, the elog proof of round 3 and most errors of the error rounds (negations proved with runs as witnesses: C45_signing_round1_undetected, C45_signing_elog_undetected, C45_signing_no_evidence, C45_signing_star_panics). A missing second multiplication proof is attributed to nobody (C45_signing_hat_ids_unattributed)."
  },
  {
   "property": "C46",
   "status": "partial",
   "theorems": [
    "Synedrion.Props.C46_aux_gen_no_framing",
    "Synedrion.Props.C46_key_init_no_framing",
    "Synedrion.Props.C46_refresh_no_framing",
    "Synedrion.Props.C46_refresh_needs_addressee",
    "Synedrion.Props.C46_blamed_sender",
    "Synedrion.Props.C46_signing_no_framing_partial",
    "Synedrion.Props.C46_signing_hat_framing",
    "Synedrion.Props.C46_signing_elog_framing",
    "Synedrion.Props.C46_signing_dec_framing",
    "Synedrion.Props.C46_signing_round1_framing",
    "Synedrion.Props.C46_signing_multiplication_partial"
   ],
   "note": "Key generation, auxiliary info generation and key refresh (in key refresh the check of a share change relies on the session layer for the addressee of a direct message; proved). Signing: proved for wrong ids, the first multiplication proof (C46_signing_multiplication_partial) and elog proofs of round 2 and for round 4; false of the code for round 1, the second multiplication proof of round 2, the elog proof of round 3 and the decryption proof of the error round: messages of parties that follow the protocol are accepted as evidence against them (C46_signing_round1_framing, C46_signing_hat_framing, C46_signing_elog_framing, C46_signing_dec_framing)."
  },
  {
   "property": "C47",
   "status": "partial",
   "theorems": [
    "Synedrion.Props.C47_aux_gen_partial",
    "Synedrion.Props.C47_aux_gen_remote_panic",
    "Synedrion.Props.C47_aux_gen_zero_commitment",
    "Synedrion.Props.C47_key_init_partial",
    "Synedrion.Props.C47_key_init_remote_panic",
    "Synedrion.Props.C47_refresh_partial",
    "Synedrion.Props.C47_refresh_remote_panic",
    "Synedrion.Props.C47_resharing_remote_panic",
    "Synedrion.Props.C47_resharing_partial",
    "Synedrion.Props.C47_resharing_wrong_key_panic",
    "Synedrion.Props.C47_signing_partial",
    "Synedrion.Props.C47_signing_zero_ciphertext",
    "Synedrion.Props.C47_signing_zero_mask"
   ],
   "note": "False of the code. Key generation: the only panic is a round 2 random string of the wrong length, and peers can always cause it (both proved). Auxiliary info: a complete list of causes, and proofs that a single peer can panic everyone by an even modulus, a random string of the wrong length, zero ring-Pedersen bases (which pass their proof) or a zero commitment in the factoring proof. Key refresh: the same four ways as auxiliary info generation, and no others. Signing: in all rounds, including the error rounds, a party with well-formed inputs panics only on a ciphertext that is not invertible (proved), and a single peer can cause this with a zero ciphertext in round 1 or round 2, forging the proofs of round 1 (both proved). Resharing: the complete list of causes is a polynomial with one coefficient, a threshold of at most one for an old holder, and constant terms that do not interpolate to the expected key; any single contributor can cause the first and, with a message that passes every check, the last (all proved). The identity point in a message is a further cause, see C58."
  },
  {
   "property": "C48",
   "status": "proved",
   "theorems": [
    "Synedrion.Props.C48_aux_gen_order",
    "Synedrion.Props.C48_key_init_order",
    "Synedrion.Props.C48_refresh_order",
    "Synedrion.Props.C48_resharing_order",
    "Synedrion.Props.C48_round_order",
    "Synedrion.Props.C48_single_fault_order",
    "Synedrion.Props.C48_signing_order"
   ],
   "note": "For every round of every protocol (they share one collection procedure), and for key generation, auxiliary info generation and signing end to end."
  },
  {
   "property": "C49",
   "status": "partial",
   "theorems": [
    "Synedrion.Props.C49_key_init",
    "Synedrion.Props.C49_aux_gen",
    "Synedrion.Props.C49_key_refresh",
    "Synedrion.Props.C49_resharing_partial",
    "Synedrion.Props.C49_signing_new",
    "Synedrion.Props.C49_signing_outsider",
    "Synedrion.Props.C49_signing_start_owner",
    "Synedrion.Props.C49_signing_starts",
    "Synedrion.Props.C49_resharing_foreign_inputs",
    "Synedrion.Props.C49_resharing_unlisted_old_holder"
   ],
   "note": "Proved for key initialization, auxiliary info, key refresh and signing. Resharing only rejects parties without a role and key shares that do not list their owner; that it accepts foreign inputs, and that an unlisted old holder ends with an unusable share, is proved with witnesses."
  },
  {
   "property": "C50",
   "status": "partial",
   "theorems": [
    "Synedrion.Props.C50_read_in_range",
    "Synedrion.Props.C50_residue_invertible_partial",
    "Synedrion.Props.C50_residue_can_exceed_modulus",
    "Synedrion.Props.C50_deterministic"
   ],
   "note": "Invertibility and bit length proved for every hash output; the documented range [0, N) is false of the code, proved with a witness."
  },
  {
   "property": "C51",
   "status": "proved",
   "theorems": [
    "Synedrion.Props.C51_bounds",
    "Synedrion.Props.C51_honest_survives_error_round"
   ],
   "note": ""
  },
  {
   "property": "C52",
   "status": "partial",
   "theorems": [
    "Synedrion.Props.C52_culprit_exists_partial",
    "Synedrion.Props.C52_cheater_not_found",
    "Synedrion.Props.C52_own_star_unchecked",
    "Synedrion.Props.C52_accepted_message",
    "Synedrion.Props.C52_dec_accepts_wrapped",
    "Synedrion.Props.C52_dec_proves_any_value"
   ],
   "note": "Proved: honest parties survive the error rounds, and an error round implies a false statement by some party. That the culprit is always identified is false of the code: the decryption proof accepts any value, so a party announcing a wrong share in round 3 is never found (proved). Also, the aff-g* proofs made for a party are not checked by that party, so with two signers none is (C52_own_star_unchecked)."
  },
  {
   "property": "C53",
   "status": "partial",
   "theorems": [
    "Synedrion.Props.C53_enc_elg_forgery",
    "Synedrion.Props.C53_aff_g_forgery",
    "Synedrion.Props.C53_aff_g_star_forgery",
    "Synedrion.Props.C53_dec_forgery",
    "Synedrion.Props.C53_enc_elg_not_binding",
    "Synedrion.Props.C53_aff_g_not_binding",
    "Synedrion.Props.C53_aff_g_star_not_binding",
    "Synedrion.Props.C53_dec_not_binding",
    "Synedrion.Props.C53_enc_elg_partial",
    "Synedrion.Props.C53_aff_g_partial",
    "Synedrion.Props.C53_aff_g_star_partial",
    "Synedrion.Props.C53_dec_partial"
   ],
   "note": "False of the code: with a zero committed ciphertext and a zero masked randomizer the Paillier equation is trivially true, so proofs are forged for arbitrary ciphertexts (forgeries and negations proved for all four proofs). With invertible commitments special soundness is proved, in full for aff-g* and dec."
  },
  {
   "property": "C54",
   "status": "proved",
   "theorems": [
    "Synedrion.Props.C54_start",
    "Synedrion.Props.C54_honest_aux_gen",
    "Synedrion.Props.C54_finishing_party"
   ],
   "note": ""
  },
  {
   "property": "C55",
   "status": "proved",
   "theorems": [
    "Synedrion.Props.C55_full_shares",
    "Synedrion.Props.C55_threshold_shares",
    "Synedrion.Props.C55_aux_info",
    "Synedrion.Props.C55_can_generate",
    "Synedrion.Props.C55_can_refresh",
    "Synedrion.Props.C55_can_convert",
    "Synedrion.Props.C55_can_reshare",
    "Synedrion.Props.C55_can_derive",
    "Synedrion.Props.C55_sign",
    "Synedrion.Props.C55_sign_adversarial"
   ],
   "note": ""
  },
  {
   "property": "C56",
   "status": "partial",
   "theorems": [
    "Synedrion.Props.C56_key_init",
    "Synedrion.Props.C56_key_init_verdict",
    "Synedrion.Props.C56_key_init_blame",
    "Synedrion.Props.C56_aux_gen",
    "Synedrion.Props.C56_aux_gen_verdict",
    "Synedrion.Props.C56_aux_gen_blame",
    "Synedrion.Props.C56_refresh",
    "Synedrion.Props.C56_refresh_verdict",
    "Synedrion.Props.C56_refresh_blame",
    "Synedrion.Props.C56_signing_partial",
    "Synedrion.Props.C56_signing_verdict",
    "Synedrion.Props.C56_signing_round6_undeclared"
   ],
   "note": "Proved for every error of key initialization, auxiliary info generation and key refresh, and for every error of signing except a failed aff-g* proof of round 6, whose check reads an undeclared message (negation proved). For key resharing the code has no evidence checks (unimplemented)."
  },
  {
   "property": "C57",
   "status": "proved",
   "theorems": [
    "Synedrion.Props.C57_key_init_agreement",
    "Synedrion.Props.C57_aux_gen_agreement",
    "Synedrion.Props.C57_signature_agreement",
    "Synedrion.Props.C57_no_influence"
   ],
   "note": ""
  },
  {
   "property": "C58",
   "status": "partial",
   "theorems": [
    "Synedrion.Props.C58_scalar_round_trip",
    "Synedrion.Props.C58_scalar_exact",
    "Synedrion.Props.C58_scalar_canonical",
    "Synedrion.Props.C58_point_round_trip_partial",
    "Synedrion.Props.C58_identity_not_encodable",
    "Synedrion.Props.C58_point_panics_iff",
    "Synedrion.Props.C58_point_encoding_not_canonical",
    "Synedrion.Props.C58_key_init_bytes",
    "Synedrion.Props.C58_key_init_identity_panics",
    "Synedrion.Props.C58_key_init_zero_share_panics",
    "Synedrion.Props.C58_points_panic_iff",
    "Synedrion.Props.C58_refresh_agrees",
    "Synedrion.Props.C58_refresh_identity_panics",
    "Synedrion.Props.C58_refresh_alone_panics",
    "Synedrion.Props.C58_signing_agrees",
    "Synedrion.Props.C58_signing_identity_panics"
   ],
   "note": "Proved for scalars, and for every point except the identity. False for the identity: it is accepted on the wire, and serializing or hashing it panics; a peer can crash receivers in key generation, key refresh and signing with it, and a party refreshing alone crashes itself (all proved). That the identity is encoded as one zero byte and accepted is an assumption about the sec1 crate, stated as Spec.Sec1Laws."
  },
  {
   "property": "C59",
   "status": "proved",
   "theorems": [
    "Synedrion.Props.C59_challenge_value",
    "Synedrion.Props.C59_challenge_uniform",
    "Synedrion.Props.C59_zero_challenge_panics",
    "Synedrion.Props.C59_digest_value",
    "Synedrion.Props.C59_digest_length"
   ],
   "note": "With debug assertions compiled in, a zero challenge panics (C59_zero_challenge_panics); release builds accept it."
  },
  {
   "property": "C60",
   "status": "proved",
   "theorems": [
    "Synedrion.Props.C60_sch",
    "Synedrion.Props.C60_elog",
    "Synedrion.Props.C60_enc_elg",
    "Synedrion.Props.C60_aff_g",
    "Synedrion.Props.C60_production_distances",
    "Synedrion.Props.C60_mod",
    "Synedrion.Props.C60_aff_g_star",
    "Synedrion.Props.C60_dec",
    "Synedrion.Props.C60_prm",
    "Synedrion.Props.C60_prm_distance",
    "Synedrion.Props.C60_fac"
   ],
   "note": "Draws are assumed uniform; the challenge is given instead of hashed (for mod: uniform among the invertible residues)."
  },
  {
   "property": "C61",
   "status": "proved",
   "theorems": [
    "Synedrion.Props.C61_key_init_bound",
    "Synedrion.Props.C61_key_init_unpredictable",
    "Synedrion.Props.C61_refresh_bound",
    "Synedrion.Props.C61_refresh_unpredictable",
    "Synedrion.Props.C61_signing_nonce_bound",
    "Synedrion.Props.C61_signing_nonce_unpredictable"
   ],
   "note": ""
  },
  {
   "property": "C62",
   "status": "partial",
   "theorems": [
    "Synedrion.Props.C62_same_way_partial",
    "Synedrion.Props.C62_signers_split"
   ],
   "note": "Proved if the signers also agree about the points S of round 3, and the accepted proofs about Delta have true statements. Without this it is false of the code: S is not echoed and nothing is proved about it in round 3, so one signer can split the others between round 4 and an error round, where nobody finishes and nobody is blamed (C62_signers_split)."
  },
  {
   "property": "C63",
   "status": "partial",
   "theorems": [
    "Synedrion.Props.C63_key_init",
    "Synedrion.Props.C63_resharing",
    "Synedrion.Props.C63_aux_gen",
    "Synedrion.Props.C63_key_refresh",
    "Synedrion.Props.C63_honest_signer_blamed",
    "Synedrion.Props.C63_signing_partial",
    "Synedrion.Props.C63_signing_error_round_partial"
   ],
   "note": "Proved for key generation, resharing, auxiliary info and key refresh, and for rounds 1 to 4 of signing. False of the error rounds of signing: the ciphertexts D of round 2 are not echoed, so a third signer can equivocate and lead an honest signer to accuse another honest one (C63_honest_signer_blamed). In the error rounds the only wrong accusation is the one about the decryption proof (C63_signing_error_round_partial)."
  },
  {
   "property": "C64",
   "status": "partial",
   "theorems": [
    "Synedrion.Props.C64_parts",
    "Synedrion.Props.C64_parts_unknown_round",
    "Synedrion.Props.C64_resharing_parts",
    "Synedrion.Props.C64_round_graph",
    "Synedrion.Props.C64_siblings_not_mutual",
    "Synedrion.Props.C64_signing_transitions",
    "Synedrion.Props.C64_resharing_communication"
   ],
   "note": "Proved for the message parts of key generation, auxiliary info, key refresh and signing, for the order of rounds in all protocols and for the communication in resharing. False of resharing, where evidence about a message part panics (C64_resharing_parts), and of the siblings declared by the rounds of signing (C64_siblings_not_mutual)."
  },
  {
   "property": "C65",
   "status": "proved",
   "theorems": [
    "Synedrion.Props.C65_purposes_separated",
    "Synedrion.Props.C65_same_bytes_same_input",
    "Synedrion.Props.C65_platform_independent",
    "Synedrion.Props.C65_digest_size"
   ],
   "note": ""
  },
  {
   "property": "C66",
   "status": "partial",
   "theorems": [
    "Synedrion.Props.C66_message_used_last",
    "Synedrion.Props.C66_share_rejected",
    "Synedrion.Props.C66_no_signature",
    "Synedrion.Props.C66_evidence_depends_on_message"
   ],
   "note": "Proved: the message is used last (C66_message_used_last), a share for another message is rejected (C66_share_rejected) and no signature comes out (C66_no_signature), if the nonce share of the peer and the combined nonce point are not zero. That no honest signer is held guilty is false of the code: the evidence is accepted by everyone who was told another message than the accused (C66_evidence_depends_on_message)."
  },
  {
   "property": "C67",
   "status": "partial",
   "theorems": [
    "Synedrion.Props.C67_key_init_partial",
    "Synedrion.Props.C67_aux_gen_partial",
    "Synedrion.Props.C67_aux_gen_panics",
    "Synedrion.Props.C67_refresh_partial",
    "Synedrion.Props.C67_refresh_panics",
    "Synedrion.Props.C67_signing_partial",
    "Synedrion.Props.C67_signing_panics",
    "Synedrion.Props.C67_resharing_panics"
   ],
   "note": "Proved: when a check can panic at all. Key generation: exactly for strings of different lengths (C67_key_init_partial). Auxiliary info and refresh: only for even or too large moduli, strings of different lengths, ill-formed ring-Pedersen parameters or non-invertible commitments. Signing: with well-formed auxiliary data never for rounds 1, 3 and 4, otherwise only for non-invertible ciphertexts or a failed aff-g* proof. The full property is false of the code: C67_aux_gen_panics, C67_refresh_panics, C67_signing_panics, C45_signing_star_panics, C67_resharing_panics."
  },
  {
   "property": "C68",
   "status": "partial",
   "theorems": [
    "Synedrion.Props.C68_paillier_key_partial",
    "Synedrion.Props.C68_equal_primes_panic",
    "Synedrion.Props.C68_ring_pedersen_partial",
    "Synedrion.Props.C68_base_uniform",
    "Synedrion.Props.C68_invertible_residue",
    "Synedrion.Props.C68_draws_valid_partial"
   ],
   "note": "Proved for different primes: full size, 3 mod 4, exact length of the modulus, key construction succeeds, exponent and masks in range without a panic, powers of the base run once through the invertible squares if the base is 1 modulo neither prime, and the draws satisfy what C54 assumes. False of the code without that: if the search returns the same prime twice, making the key panics (C68_equal_primes_panic). That the search returns primes of the promised form is an assumption about the crypto-primes crate."
  },
  {
   "property": "C69",
   "status": "partial",
   "theorems": [
    "Synedrion.Props.C69_answer_hides_partial",
    "Synedrion.Props.C69_key_revealed"
   ],
   "note": "Proved: for an encrypted value of at most L+EPS bits, which is what the accompanying proof is meant to establish, the answers for two secrets are at most 2^-L apart. False of the code: since that proof can be forged, a dishonest signer that sends an encryption of 2^LP reads the shares of all the others, hence the key, exactly and in every run (C69_key_revealed, with an explicit program for the dishonest signer). The computational parts of the answer (encryption under the sender's own key, proof) are outside; for the proof see C60."
  },
  {
   "property": "C70",
   "status": "partial",
   "theorems": [
    "Synedrion.Props.C70_commitment_hides_partial",
    "Synedrion.Props.C70_primes_revealed",
    "Synedrion.Props.C70_refresh_primes_revealed",
    "Synedrion.Props.C70_key_revealed"
   ],
   "note": "Proved: if s is a power of the invertible t, as for all honestly made parameters, the commitments to any two values are at most 2^-L apart. False of the code: since an empty prm proof is accepted, a dishonest party can publish the parameters m^2, 1+m, 1; it then reads the Paillier primes of all the others in the generation of auxiliary info (C70_primes_revealed: nobody notices and all finish with usable auxiliary info; C70_refresh_primes_revealed: the same in key refresh) and their nonce shares and key shares, hence the key, in any signing session (C70_key_revealed)."
  },
  {
   "property": "C71",
   "status": "proved",
   "theorems": [
    "Synedrion.Props.C71_other_point_is_guess",
    "Synedrion.Props.C71_nonce_committed",
    "Synedrion.Props.C71_nonce_fixed"
   ],
   "note": ""
  },
  {
   "property": "C72",
   "status": "partial",
   "theorems": [
    "Synedrion.Props.C72_results_partial",
    "Synedrion.Props.C72_key_init_partial",
    "Synedrion.Props.C72_resharing_partial",
    "Synedrion.Props.C72_aux_gen_shows_primes",
    "Synedrion.Props.C72_key_refresh_shows_primes",
    "Synedrion.Props.C72_signing_shows_primes"
   ],
   "note": "Proved: results of protocols, entry points and the sessions of key generation and resharing print their public parts only. False of the code for sessions that hold the expanded Paillier key (signing, auxiliary info generation, key refresh): their output shows both primes, because the Montgomery parameters modulo the primes are not wrapped in Secret."
  },
  {
   "property": "C73",
   "status": "proved",
   "theorems": [
    "Synedrion.Props.C73_values",
    "Synedrion.Props.C73_widen",
    "Synedrion.Props.C73_narrow",
    "Synedrion.Props.C73_widen_narrow",
    "Synedrion.Props.C73_mul",
    "Synedrion.Props.C73_bytes",
    "Synedrion.Props.C73_bytes_back"
   ],
   "note": ""
  },
  {
   "property": "C74",
   "status": "proved",
   "theorems": [
    "Synedrion.Props.C74_relation",
    "Synedrion.Props.C74_no_small_factor",
    "Synedrion.Props.C74_relation_reveals"
   ],
   "note": ""
  },
  {
   "property": "C75",
   "status": "partial",
   "theorems": [
    "Synedrion.Props.C75_composition_partial",
    "Synedrion.Props.C75_composition_needs_coincidence",
    "Synedrion.Props.C75_does_not_compose",
    "Synedrion.Props.C75_child_reveals_parent",
    "Synedrion.Props.C75_sharing_independent"
   ],
   "note": "Independence of the sharing is proved. Composition of paths and secrecy of the parent are false of the code (negations proved); the partial theorem shows composition when the chain code is carried on."
  },
  {
   "property": "C76",
   "status": "proved",
   "theorems": [
    "Synedrion.Props.C76_refresh_hides",
    "Synedrion.Props.C76_one_period_reveals",
    "Synedrion.Props.C76_resharing_hides",
    "Synedrion.Props.C76_dealt_shares",
    "Synedrion.Props.C76_refreshed_share",
    "Synedrion.Props.C76_sent_subshares"
   ],
   "note": ""
  },
  {
   "property": "C77",
   "status": "partial",
   "theorems": [
    "Synedrion.Props.C77_stored_shares_partial",
    "Synedrion.Props.C77_identity_share_panics",
    "Synedrion.Props.C77_stored_aux_info",
    "Synedrion.Props.C77_usable_aux_info",
    "Synedrion.Props.C77_bad_primes_load",
    "Synedrion.Props.C77_inconsistent_loads"
   ],
   "note": "Round trips are proved for auxiliary info and for shares without an identity among the public shares. Storing a share with one panics, and inconsistent shares and useless primes are loaded without complaint (negations proved)."
  },
  {
   "property": "C78",
   "status": "proved",
   "theorems": [
    "Synedrion.Props.C78_damaged_share_starts",
    "Synedrion.Props.C78_damaged_share_noticed",
    "Synedrion.Props.C78_mismatch_rejected",
    "Synedrion.Props.C78_outdated_noticed"
   ],
   "note": ""
  },
  {
   "property": "C79",
   "status": "partial",
   "theorems": [
    "Synedrion.Props.C79_arithmetic_partial",
    "Synedrion.Props.C79_conversions_partial",
    "Synedrion.Props.C79_exponentiation_partial",
    "Synedrion.Props.C79_encryption_partial",
    "Synedrion.Props.C79_derive_randomizer_partial",
    "Synedrion.Props.C79_decrypt_steps",
    "Synedrion.Props.C79_decrypt_tells_zero",
    "Synedrion.Props.C79_decrypt_tells_size",
    "Synedrion.Props.C79_scalar_conversion_steps",
    "Synedrion.Props.C79_square_root_steps",
    "Synedrion.Props.C79_key_load_steps",
    "Synedrion.Props.C79_results",
    "Synedrion.Props.C79_decrypt_leaks"
   ],
   "note": "Proved for arithmetic, range checks, constructors, widening, conversion from scalars, exponentiation, commitments, encryption and recovery of randomizers. False for decryption, conversion to scalars, square roots modulo the primes and loading of keys; for these it is proved exactly what the steps tell."
  },
  {
   "property": "C80",
   "status": "proved",
   "theorems": [
    "Synedrion.Props.C80_key_init",
    "Synedrion.Props.C80_aux_gen",
    "Synedrion.Props.C80_key_refresh",
    "Synedrion.Props.C80_key_resharing",
    "Synedrion.Props.C80_signing"
   ],
   "note": ""
  },
  {
   "property": "C81",
   "status": "proved",
   "theorems": [
    "Synedrion.Props.C81_key_init",
    "Synedrion.Props.C81_key_init_agreement",
    "Synedrion.Props.C81_aux_gen",
    "Synedrion.Props.C81_aux_gen_agreement",
    "Synedrion.Props.C81_key_refresh",
    "Synedrion.Props.C81_key_refresh_agreement",
    "Synedrion.Props.C81_key_resharing",
    "Synedrion.Props.C81_signing",
    "Synedrion.Props.C81_signature_agreement"
   ],
   "note": ""
  },
  {
   "property": "C82",
   "status": "proved",
   "theorems": [
    "Synedrion.Props.C82_key_init",
    "Synedrion.Props.C82_aux_gen",
    "Synedrion.Props.C82_key_refresh"
   ],
   "note": ""
  },
  {
   "property": "C83",
   "status": "partial",
   "theorems": [
    "Synedrion.Props.C83_key_init",
    "Synedrion.Props.C83_aux_gen",
    "Synedrion.Props.C83_key_refresh",
    "Synedrion.Props.C83_resharing",
    "Synedrion.Props.C83_signing_partial",
    "Synedrion.Props.C83_signing_error_round_partial",
    "Synedrion.Props.C83_honest_signer_blamed"
   ],
   "note": "Proved for key generation, resharing, auxiliary info and key refresh, and for rounds 1 to 4 of signing, for all executions. False of the error rounds of signing: C83_honest_signer_blamed constructs an execution with working echo broadcasts in which an honest signer accuses an honest one. The decryption proof of an error round is the only reason for a wrong accusation (C83_signing_error_round_partial)."
  },
  {
   "property": "C84",
   "status": "partial",
   "theorems": [
    "Synedrion.Props.C84_same_round_partial",
    "Synedrion.Props.C84_signers_stuck"
   ],
   "note": "Proved for all executions in which the values S of round 3 agree too and the accepted proofs about Delta are about true statements. False without the former, because S is not part of an echo broadcast: C84_signers_stuck constructs an execution with working echo broadcasts from which no continuation lets any honest signer complete another round."
  },
  {
   "property": "C85",
   "status": "partial",
   "theorems": [
    "Synedrion.Props.C85_key_init_partial",
    "Synedrion.Props.C85_key_init_panic",
    "Synedrion.Props.C85_aux_gen_partial",
    "Synedrion.Props.C85_aux_gen_panic",
    "Synedrion.Props.C85_key_refresh_partial",
    "Synedrion.Props.C85_key_refresh_panic",
    "Synedrion.Props.C85_resharing_partial",
    "Synedrion.Props.C85_resharing_panic",
    "Synedrion.Props.C85_signing_partial",
    "Synedrion.Props.C85_signing_panic"
   ],
   "note": "False of the code: in each of the five protocols any party that is not honest can make any honest party panic (C85_*_panic construct the executions). Proved for all executions in which the parties that are not honest send none of the messages known to do this; for resharing what remains then is a key different from the expected one."
  },
  {
   "property": "C86",
   "status": "proved",
   "theorems": [
    "Synedrion.Props.C86_key_init_convincing",
    "Synedrion.Props.C86_key_init_unframed",
    "Synedrion.Props.C86_aux_gen_convincing",
    "Synedrion.Props.C86_aux_gen_unframed",
    "Synedrion.Props.C86_refresh_convincing",
    "Synedrion.Props.C86_refresh_unframed"
   ],
   "note": "Key generation, auxiliary info generation and key refresh. The restriction on direct messages is needed: C46_refresh_needs_addressee."
  },
  {
   "property": "C87",
   "status": "partial",
   "theorems": [
    "Synedrion.Props.C87_signing_convincing_partial",
    "Synedrion.Props.C87_signing_unframed_partial",
    "Synedrion.Props.C87_signing_multiplication_unframed_partial",
    "Synedrion.Props.C87_signing_elog_framed",
    "Synedrion.Props.C87_signing_hat_framed"
   ],
   "note": "Proved for round 2 (except the second multiplication proof), round 4 and, for framing, the sets of ids of the error rounds. False of the code for the other proofs: C87_signing_elog_framed and C87_signing_hat_framed show that messages signed by honest parties convict them in executions of honest parties; see C45 and C46 for the remaining errors."
  },
  {
   "property": "C88",
   "status": "proved",
   "theorems": [
    "Synedrion.Props.C88_full_shares",
    "Synedrion.Props.C88_threshold_shares",
    "Synedrion.Props.C88_sign",
    "Synedrion.Props.C88_longer_polynomials",
    "Synedrion.Props.C88_shared_ids"
   ],
   "note": "The condition on the messages of resharings is part of the statement; C88_longer_polynomials and C88_shared_ids show that neither half can be dropped."
  },
  {
   "property": "C89",
   "status": "partial",
   "theorems": [
    "Synedrion.Props.C89_operations",
    "Synedrion.Props.C89_no_traces_partial",
    "Synedrion.Props.C89_neg_leaves_copy",
    "Synedrion.Props.C89_montgomery_leaves_copy"
   ],
   "note": "The values are right for all operations. That nothing is left in memory is proved for all operations but neg and to_montgomery, and is false for these two: C89_neg_leaves_copy, C89_montgomery_leaves_copy. The encoding of the wrapped types is a parameter here; for scalars it makes copies of its own, see C106."
  },
  {
   "property": "C90",
   "status": "partial",
   "theorems": [
    "Synedrion.Props.C90_round_trip_partial",
    "Synedrion.Props.C90_identity_not_sent",
    "Synedrion.Props.C90_decoded_fits",
    "Synedrion.Props.C90_key_init_sent_partial",
    "Synedrion.Props.C90_aux_gen_sent",
    "Synedrion.Props.C90_key_refresh_sent_partial",
    "Synedrion.Props.C90_signing_sent_partial"
   ],
   "note": "Proved for all messages without identity points; a message with one cannot be serialized: C90_identity_not_sent. Auxiliary info generation has no points and is complete (C90_aux_gen_sent). For resharing only the encodings are covered; its messages have no integers that could be too large."
  },
  {
   "property": "C91",
   "status": "partial",
   "theorems": [
    "Synedrion.Props.C91_key_init",
    "Synedrion.Props.C91_key_init_agreement",
    "Synedrion.Props.C91_key_init_blame",
    "Synedrion.Props.C91_key_init_finishes_partial",
    "Synedrion.Props.C91_key_init_zero",
    "Synedrion.Props.C91_aux_gen",
    "Synedrion.Props.C91_aux_gen_agreement",
    "Synedrion.Props.C91_aux_gen_blame",
    "Synedrion.Props.C91_aux_gen_finishes",
    "Synedrion.Props.C91_key_refresh",
    "Synedrion.Props.C91_key_refresh_agreement",
    "Synedrion.Props.C91_key_refresh_blame",
    "Synedrion.Props.C91_resharing",
    "Synedrion.Props.C91_resharing_blame",
    "Synedrion.Props.C91_signing",
    "Synedrion.Props.C91_signature_agreement",
    "Synedrion.Props.C91_signing_blame_partial",
    "Synedrion.Props.C91_parts"
   ],
   "note": "Refinement, agreement and blame for all protocols; for signing blame is as far as C83 goes. Termination is proved for auxiliary info generation, and for key generation if no party has drawn zero (false otherwise: C91_key_init_zero). For termination of refresh, resharing and signing see C92."
  },
  {
   "property": "C92",
   "status": "proved",
   "theorems": [
    "Synedrion.Props.C92_key_init",
    "Synedrion.Props.C92_key_init_stuck",
    "Synedrion.Props.C92_key_refresh",
    "Synedrion.Props.C92_key_refresh_stuck",
    "Synedrion.Props.C92_resharing",
    "Synedrion.Props.C92_resharing_stuck",
    "Synedrion.Props.C92_resharing_zero_share",
    "Synedrion.Props.C92_signing",
    "Synedrion.Props.C92_signing_stuck"
   ],
   "note": "That hashing panics only because of identity points is an assumption (`PanicsOnly`); where it does so is a parameter. Auxiliary info generation sends no points, see C91_aux_gen_finishes."
  },
  {
   "property": "C93",
   "status": "proved",
   "theorems": [
    "Synedrion.Props.C93_receivable",
    "Synedrion.Props.C93_key_init",
    "Synedrion.Props.C93_key_init_stuck",
    "Synedrion.Props.C93_key_init_crash",
    "Synedrion.Props.C93_key_refresh",
    "Synedrion.Props.C93_key_refresh_stuck",
    "Synedrion.Props.C93_key_refresh_crash",
    "Synedrion.Props.C93_signing",
    "Synedrion.Props.C93_signing_stuck",
    "Synedrion.Props.C93_signing_crash",
    "Synedrion.Props.C93_signing_crash_at_once"
   ],
   "note": "Simplified: a party whose own messages contain a hashed identity panics at its first step of the round, and a receiver panics even if a check that precedes the hashing fails (Model/HashPoints). Resharing and auxiliary info generation hash no points."
  },
  {
   "property": "C94",
   "status": "proved",
   "theorems": [
    "Synedrion.Props.C94_key_init",
    "Synedrion.Props.C94_aux_gen",
    "Synedrion.Props.C94_key_refresh",
    "Synedrion.Props.C94_resharing",
    "Synedrion.Props.C94_signing",
    "Synedrion.Props.C94_signing_delta"
   ],
   "note": "The kinds of harmful messages are those of C85. In signing it is assumed of the honest parties' messages that they contain no identity point and no zero `delta`, as these depend on the draws of all parties."
  },
  {
   "property": "C95",
   "status": "proved",
   "theorems": [
    "Synedrion.Props.C95_random_exact",
    "Synedrion.Props.C95_challenge_exact",
    "Synedrion.Props.C95_random_uniform",
    "Synedrion.Props.C95_challenge_uniform",
    "Synedrion.Props.C95_joint_one_contribution",
    "Synedrion.Props.C95_joint_uniform"
   ],
   "note": "Uniformity is stated as a count of preimages; that the generator and the hash give uniform bytes is outside the model."
  },
  {
   "property": "C96",
   "status": "proved",
   "theorems": [
    "Synedrion.Props.C96_key_init",
    "Synedrion.Props.C96_aux_gen",
    "Synedrion.Props.C96_key_refresh",
    "Synedrion.Props.C96_resharing",
    "Synedrion.Props.C96_signing",
    "Synedrion.Props.C96_signature_fixed"
   ],
   "note": "Guarantees of single runs, lifted to all executions over serialized messages. That accepted proofs come from provers who know a witness is not part of the statement (see the soundness properties of the proofs)."
  },
  {
   "property": "C97",
   "status": "proved",
   "theorems": [
    "Synedrion.Props.C97_signing",
    "Synedrion.Props.C97_signing_serialization"
   ],
   "note": "Complete characterization for honest signers. The joint nonces, r, s and the key are assumed not to be zero, as in C41; the masks of the range proofs are assumed to keep away from the ends of their intervals."
  },
  {
   "property": "C98",
   "status": "proved",
   "theorems": [
    "Synedrion.Props.C98_key_init_convincing",
    "Synedrion.Props.C98_key_init_unframed",
    "Synedrion.Props.C98_check_crash",
    "Synedrion.Props.C98_aux_gen_convincing",
    "Synedrion.Props.C98_aux_gen_unframed",
    "Synedrion.Props.C98_refresh_convincing",
    "Synedrion.Props.C98_refresh_unframed"
   ],
   "note": "Key generation, auxiliary info generation and key refresh. As in C86, for parameters where that is necessary the moduli an honest party has read are assumed not to be larger than the honest ones and its draws to be valid. The check of evidence can be made to panic by dishonest evidence (C98_check_crash)."
  },
  {
   "property": "C99",
   "status": "proved",
   "theorems": [
    "Synedrion.Props.C99_full_shares",
    "Synedrion.Props.C99_threshold_shares",
    "Synedrion.Props.C99_sign"
   ],
   "note": "The auxiliary info used in signing is assumed to fit the parameters; C100 shows that the auxiliary info sessions end with does. The form of messages in resharings is a hypothesis, as in C88 (the code does not check it, C88_longer_polynomials, C88_shared_ids)."
  },
  {
   "property": "C100",
   "status": "proved",
   "theorems": [
    "Synedrion.Props.C100_aux_info",
    "Synedrion.Props.C100_start",
    "Synedrion.Props.C100_sign"
   ],
   "note": "`C100_sign` assumes that the integers moduli are kept in have no more bits than a modulus, which holds for all parameter sets of the code (example beside the theorem). As in C91, agreement is about sessions whose echo-broadcasts agree and hashes without collisions."
  },
  {
   "property": "C101",
   "status": "partial",
   "theorems": [
    "Synedrion.Props.C101_signing_convincing_partial",
    "Synedrion.Props.C101_signing_unframed_partial",
    "Synedrion.Props.C101_signing_multiplication_unframed_partial",
    "Synedrion.Props.C101_signing_elog_framed",
    "Synedrion.Props.C101_signing_hat_framed"
   ],
   "note": "The full statement is false of the code: `C46_signing_hat_framing`, `C101_signing_hat_framed`, `C101_signing_elog_framed`, `C46_signing_round1_framing`, `C46_signing_dec_framing`, `C45_signing_round1_undetected`, `C45_signing_elog_undetected`, `C45_signing_no_evidence`, `C45_signing_star_panics`. Proved for all errors for which C87 has it."
  },
  {
   "property": "C102",
   "status": "proved",
   "theorems": [
    "Synedrion.Props.C102_generate_and_sign",
    "Synedrion.Props.C102_refresh_and_sign",
    "Synedrion.Props.C102_reshare_and_sign"
   ],
   "note": "In the resharing theorem the auxiliary info of the new holders is any that they can use (`UsableAux`, which is what C91 and C54 say of a session of auxiliary info generation), and the condition that no share is zero is on the shares that the session returned."
  },
  {
   "property": "C103",
   "status": "partial",
   "theorems": [
    "Synedrion.Props.C103_operations",
    "Synedrion.Props.C103_no_traces_partial",
    "Synedrion.Props.C103_range_check_leaves_copy",
    "Synedrion.Props.C103_new_modulo_leaves_difference",
    "Synedrion.Props.C103_traces"
   ],
   "note": "Partial because the full property is false of `&`, `new_modulo`, `assert_exponent_range` and `ensure_exponent_range` (`C103_traces`); what they leave is proved for every state. Memory used inside the arithmetic of the integers, and copies made by the compiler when values are moved, are not modelled."
  },
  {
   "property": "C104",
   "status": "partial",
   "theorems": [
    "Synedrion.Props.C104_key",
    "Synedrion.Props.C104_lifetime_partial",
    "Synedrion.Props.C104_factors_left",
    "Synedrion.Props.C104_encrypt",
    "Synedrion.Props.C104_randomizer",
    "Synedrion.Props.C104_decrypt",
    "Synedrion.Props.C104_derive_randomizer"
   ],
   "note": "Partial because that nothing is left is false (`C104_factors_left`, `C104_encrypt`, `C104_decrypt`); the theorems say exactly what is left, for all inputs. It is true of `derive_randomizer`. Executions that panic, memory used inside the libraries, copies made by the compiler when values are moved, and parameters inside Montgomery forms are not modelled."
  },
  {
   "property": "C105",
   "status": "partial",
   "theorems": [
    "Synedrion.Props.C105_key",
    "Synedrion.Props.C105_split_partial",
    "Synedrion.Props.C105_split_reveals_factors",
    "Synedrion.Props.C105_sqrt_partial",
    "Synedrion.Props.C105_join_partial",
    "Synedrion.Props.C105_join_reveals_factors"
   ],
   "note": "Partial because that nothing is left is false (`C105_split_reveals_factors`, `C105_join_reveals_factors`); the theorems say exactly what is left, for all keys and numbers. Memory used inside the libraries, copies made by the compiler when values are moved, and parameters inside Montgomery forms are not modelled."
  },
  {
   "property": "C106",
   "status": "partial",
   "theorems": [
    "Synedrion.Props.C106_serialize_partial",
    "Synedrion.Props.C106_deserialize_partial",
    "Synedrion.Props.C106_signed_from_scalar_partial",
    "Synedrion.Props.C106_scalar_from_signed_partial",
    "Synedrion.Props.C106_scalar_from_wide_signed_partial",
    "Synedrion.Props.C106_scalar_left"
   ],
   "note": "Partial because that nothing is left is false (`C106_scalar_left`); the theorems say exactly what is left, for all inputs. Memory used inside the libraries, copies made by the compiler when values are moved, and bytes of the wrong length are not modelled."
  },
  {
   "property": "C107",
   "status": "proved",
   "theorems": [
    "Synedrion.Props.C107_secret_split",
    "Synedrion.Props.C107_shamir_split",
    "Synedrion.Props.C107_shamir_join",
    "Synedrion.Props.C107_split_and_join",
    "Synedrion.Props.C107_same_values",
    "Synedrion.Props.C107_dealt_shares",
    "Synedrion.Props.C107_dealt_threshold_shares",
    "Synedrion.Props.C107_updated_share",
    "Synedrion.Props.C107_converted_share",
    "Synedrion.Props.C107_reshared_share",
    "Synedrion.Props.C107_refreshed_share"
   ],
   "note": "Memory used inside the libraries, copies made by the compiler when values are moved, and the map that holds the shares are not modelled."
  }
 ]
}