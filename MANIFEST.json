{
 "claims": [
  {
   "property": "C01",
   "status": "proved",
   "theorems": [
    "Idemix.Dlog.C01_generated_issuer_key_imports",
    "Idemix.Dlog.C01_generated_issuer_key_validates"
   ],
   "note": "all names lists and randomness; serialisability of the names is the only assumption about proto.Marshal"
  },
  {
   "property": "C02",
   "status": "proved",
   "theorems": [
    "Idemix.Dlog.C02_import_attribute_names",
    "Idemix.Dlog.C02_import_success",
    "Idemix.Dlog.C02_import_categories",
    "Idemix.Dlog.C02_keygen_rejects_duplicates"
   ],
   "note": "generation and byte-level import"
  },
  {
   "property": "C03",
   "status": "proved",
   "theorems": [
    "Idemix.Dlog.C03_validated_key_well_formed",
    "Idemix.Dlog.C03_issuer_key_extraction"
   ],
   "note": "knowledge soundness is stated for two runs of a prover against two oracles"
  },
  {
   "property": "C04",
   "status": "proved",
   "theorems": [
    "Idemix.Dlog.C04_bridge_request_nonce",
    "Idemix.Dlog.C04_bridge_request_roundtrip",
    "Idemix.Dlog.C04_bridge_request_bad_length",
    "Idemix.Dlog.C04_request_accepted",
    "Idemix.Dlog.C04_request_without_nonce_refused"
   ],
   "note": "scheme level and byte-level bridge, where the nonce length is enforced"
  },
  {
   "property": "C05",
   "status": "proved",
   "theorems": [
    "Idemix.Dlog.C05_request_extraction",
    "Idemix.Dlog.C05_request_binding"
   ],
   "note": "extraction in two-oracle form; binding up to an explicit hash collision"
  },
  {
   "property": "C06",
   "status": "proved",
   "theorems": [
    "Idemix.Dlog.C06_bridge_issuance",
    "Idemix.Dlog.C06_issued_credential_verifies"
   ],
   "note": ""
  },
  {
   "property": "C07",
   "status": "proved",
   "theorems": [
    "Idemix.Dlog.C07_bridge_issuer_refuses",
    "Idemix.Dlog.C07_issuer_refuses_bad_requests",
    "Idemix.Dlog.C07_issuer_accepts_good_requests"
   ],
   "note": ""
  },
  {
   "property": "C08",
   "status": "proved",
   "theorems": [
    "Idemix.Dlog.C08_bridge_attributes",
    "Idemix.Dlog.C08_credential_verification_exact",
    "Idemix.Dlog.C08_one_secret_per_credential",
    "Idemix.Dlog.C08_same_signature_attribute_relation",
    "Idemix.Dlog.C08_one_place"
   ],
   "note": "scheme level and byte-level bridge with supplied attributes"
  },
  {
   "property": "C09",
   "status": "proved",
   "theorems": [
    "Idemix.Dlog.C09_bridge_honest_signature",
    "Idemix.Dlog.C09_honest_signature_verifies"
   ],
   "note": "all three signature types, all matching verification types and BestEffort"
  },
  {
   "property": "C10",
   "status": "proved",
   "theorems": [
    "Idemix.Dlog.C10_signature_extraction"
   ],
   "note": "special soundness for the two-oracle (forking) form; for BestEffort both runs must carry the same pseudonyms"
  },
  {
   "property": "C11",
   "status": "proved",
   "theorems": [
    "Idemix.Dlog.C11_signature_binding",
    "Idemix.Dlog.C11_values_one_place"
   ],
   "note": "changing any bound value while keeping the proof yields an explicit collision of the scalar hash"
  },
  {
   "property": "C12",
   "status": "proved",
   "theorems": [
    "Idemix.Dlog.C12_perfect_anonymity"
   ],
   "note": "explicit bijection of the signing randomness; HRand different from the identity"
  },
  {
   "property": "C13",
   "status": "proved",
   "theorems": [
    "Idemix.Aries.C13_aries_verification_types",
    "Idemix.Dlog.C13_bridge_verify_exact",
    "Idemix.Dlog.C13_verification_types"
   ],
   "note": "both schemes: dlog in full; aries: presence or absence and the checks made for each verification type (C13_aries_verification_types)"
  },
  {
   "property": "C14",
   "status": "proved",
   "theorems": [
    "Idemix.Dlog.C14_disclosed_eid_not_bound",
    "Idemix.Dlog.C14_pseudonyms_bound_to_credential"
   ],
   "note": "for hidden attribute positions, as the property says; C14_disclosed_eid_not_bound shows the restriction is needed"
  },
  {
   "property": "C15",
   "status": "partial",
   "theorems": [
    "Idemix.Aries.C15_aries_eid_exact",
    "Idemix.Aries.C15_aries_rh_exact",
    "Idemix.Aries.C15_aries_openings_audit",
    "Idemix.Aries.C15_aries_eid_binding",
    "Idemix.Aries.C15_aries_rh_binding",
    "Idemix.Aries.C15_aries_index_violated",
    "Idemix.Dlog.C15_bridge_audit_eid",
    "Idemix.Dlog.C15_bridge_audit_rh",
    "Idemix.Dlog.C15_audit_exact",
    "Idemix.Dlog.C15_raw_audit_exact",
    "Idemix.Dlog.C15_audit_binding",
    "Idemix.Dlog.C15_index_out_of_range"
   ],
   "note": "exact and binding in both schemes; violated by the aries scheme for an attribute index out of range, which panics instead of giving an error (C15_aries_index_violated)"
  },
  {
   "property": "C16",
   "status": "proved",
   "theorems": [
    "Idemix.Aries.C16_aries_verifier_checks_metadata",
    "Idemix.Aries.C16_aries_supplied_metadata_must_match",
    "Idemix.Dlog.C16_verifier_checks_metadata",
    "Idemix.Dlog.C16_returned_metadata_consistent",
    "Idemix.Dlog.C16_supplied_metadata_must_match"
   ],
   "note": "both schemes: returned metadata (dlog C16_returned_metadata_consistent; aries in C39), supplied metadata, and what the verifier checks"
  },
  {
   "property": "C17",
   "status": "proved",
   "theorems": [
    "Idemix.Dlog.C17_bridge_nym_signature",
    "Idemix.Dlog.C17_nym_signature_complete",
    "Idemix.Dlog.C17_nym_signature_extraction",
    "Idemix.Dlog.C17_nym_signature_binding"
   ],
   "note": ""
  },
  {
   "property": "C18",
   "status": "proved",
   "theorems": [
    "Idemix.Aries.C18_aries_nym_hides_user",
    "Idemix.Dlog.C18_nym_hides_user"
   ],
   "note": "both schemes"
  },
  {
   "property": "C19",
   "status": "partial",
   "theorems": [
    "Idemix.Dlog.C19_epoch_and_revocation_key_ignored",
    "Idemix.Dlog.C19_violated",
    "Idemix.Dlog.C19_revocation_data_partial",
    "Idemix.Provider.C19_dlog_provider_violated",
    "Idemix.Provider.C19_aries_provider_violated",
    "Idemix.Provider.C19_aries_provider_partial"
   ],
   "note": "violated: epoch and revocation key are not used by signature verification, in the dlog bridge and at the provider for both schemes (C19_violated, C19_dlog_provider_violated, C19_aries_provider_violated); the proved parts say what is bound"
  },
  {
   "property": "C20",
   "status": "partial",
   "theorems": [
    "Idemix.Aries.C20_aries_signed_verifies",
    "Idemix.Aries.C20_aries_violated",
    "Idemix.Aries.C20_aries_partial",
    "Idemix.Dlog.C20_dlog_signed_verifies",
    "Idemix.Dlog.C20_dlog_sign_succeeds",
    "Idemix.Dlog.C20_dlog_violated",
    "Idemix.Dlog.C20_dlog_partial"
   ],
   "note": "violated by both bridges: dlog ignores the requested epoch and algorithm (C20_dlog_violated), aries replaces the carried ones by the requested ones (C20_aries_violated)"
  },
  {
   "property": "C21",
   "status": "proved",
   "theorems": [
    "Idemix.Dlog.C21_issuer_key_transcript",
    "Idemix.Dlog.C21_request_transcript",
    "Idemix.Dlog.C21_request_transcript_truncates",
    "Idemix.Dlog.C21_nym_signature_transcript",
    "Idemix.Dlog.C21_signer_transcript",
    "Idemix.Dlog.C21_verifier_transcript",
    "Idemix.Dlog.C21_second_hash"
   ],
   "note": ""
  },
  {
   "property": "C22",
   "status": "proved",
   "theorems": [
    "Idemix.Dlog.C22_bridge_never_panics",
    "Idemix.Dlog.C22_bases_violated"
   ],
   "note": "every entry point except Issuer.Bases of the dlog bridge, which always panics (C22_bases_violated)"
  },
  {
   "property": "C23",
   "status": "partial",
   "theorems": [
    "Idemix.Dlog.C23_fp256bn",
    "Idemix.Dlog.C23_fp256bn_miracl",
    "Idemix.Dlog.C23_gurvy_partial",
    "Idemix.Dlog.C23_gurvy_violated"
   ],
   "note": "violated by the gnark translator (C23_gurvy_violated): Y is truncated or padded"
  },
  {
   "property": "C24",
   "status": "proved",
   "theorems": [
    "Idemix.Bbs.C24_verify_exact",
    "Idemix.Bbs.C24_sign_scalars_verifies",
    "Idemix.Bbs.C24_sign_verifies",
    "Idemix.Bbs.C24_count_violated"
   ],
   "note": "byte and scalar level; C24_count_violated shows that the exported scalar signer mishandles a count different from the vector length"
  },
  {
   "property": "C25",
   "status": "proved",
   "theorems": [
    "Idemix.Bbs.C25_binding",
    "Idemix.Bbs.C25_binding_length"
   ],
   "note": "two verifying vectors of one signature give an explicit relation between generators"
  },
  {
   "property": "C26",
   "status": "proved",
   "theorems": [
    "Idemix.Bbs.C26_derived_proof_verifies",
    "Idemix.Bbs.C26_derived_proof_scalars",
    "Idemix.Bbs.C26_empty_refused"
   ],
   "note": "every non-empty selection, nonce and randomness with r1 nonzero"
  },
  {
   "property": "C27",
   "status": "partial",
   "theorems": [
    "Idemix.Bbs.C27_extraction_partial",
    "Idemix.Bbs.C27_violated",
    "Idemix.Bbs.C27_surplus_violated"
   ],
   "note": "violated: the number of responses is not checked, a fixed byte string is accepted under every key (C27_violated), surplus messages are ignored (C27_surplus_violated); special soundness is proved for proofs with the right number of responses"
  },
  {
   "property": "C28",
   "status": "partial",
   "theorems": [
    "Idemix.Bbs.C28_payload_roundtrip",
    "Idemix.Bbs.C28_count_refused",
    "Idemix.Bbs.C28_index_refused_partial",
    "Idemix.Bbs.C28_range_violated",
    "Idemix.Bbs.C28_parse_length"
   ],
   "note": "violated: indices past the count are accepted inside the last byte (C28_range_violated)"
  },
  {
   "property": "C29",
   "status": "proved",
   "theorems": [
    "Idemix.Bbs.C29_signature_roundtrip",
    "Idemix.Bbs.C29_proof_roundtrip",
    "Idemix.Bbs.C29_signatureProof_roundtrip",
    "Idemix.Bbs.C29_key_roundtrip"
   ],
   "note": ""
  },
  {
   "property": "C30",
   "status": "partial",
   "theorems": [
    "Idemix.Bbs.C30_signature_no_panic",
    "Idemix.Bbs.C30_payload_no_panic",
    "Idemix.Bbs.C30_proof_no_panic",
    "Idemix.Bbs.C30_signatureProof_violated",
    "Idemix.Bbs.C30_verifyProof_violated",
    "Idemix.Bbs.C30_signatureProof_partial"
   ],
   "note": "violated: ParseSignatureProof and VerifyProof panic on short input (C30_signatureProof_violated, C30_verifyProof_violated)"
  },
  {
   "property": "C31",
   "status": "proved",
   "theorems": [
    "Idemix.Bbs.C31_inputs_distinct",
    "Idemix.Bbs.C31_inputs_disjoint"
   ],
   "note": "inputs of the hash to the curve; distinctness of the points themselves is an assumption on the hash"
  },
  {
   "property": "C32",
   "status": "proved",
   "theorems": [
    "Idemix.Bbs.Cache.C32_cache_transparent",
    "Idemix.Bbs.Cache.C32_calls_agree",
    "Idemix.Bbs.Cache.C32_no_blocking"
   ],
   "note": "all interleavings of any number of calls; sync.Map atomicity is trusted"
  },
  {
   "property": "C33",
   "status": "proved",
   "theorems": [
    "Idemix.Bbs.C33_okm_scalar"
   ],
   "note": ""
  },
  {
   "property": "C34",
   "status": "partial",
   "theorems": [
    "Idemix.Bbs.C34_seed_deterministic",
    "Idemix.Bbs.C34_seed_length",
    "Idemix.Bbs.C34_key_pair",
    "Idemix.Bbs.C34_empty_seed_violated",
    "Idemix.Bbs.C34_partial"
   ],
   "note": "violated: an empty seed gives a constant key (C34_empty_seed_violated)"
  },
  {
   "property": "C35",
   "status": "proved",
   "theorems": [
    "Idemix.Bbs.C35_multiexp",
    "Idemix.Bbs.C35_too_few"
   ],
   "note": ""
  },
  {
   "property": "C36",
   "status": "proved",
   "theorems": [
    "Idemix.Aries.C36_keys",
    "Idemix.Aries.C36_issuance",
    "Idemix.Aries.C36_issuance_position_zero"
   ],
   "note": "every attribute list; the secret at position 0 as issued by the library, and at every position for the scheme functions"
  },
  {
   "property": "C37",
   "status": "partial",
   "theorems": [
    "Idemix.Aries.C37_violated",
    "Idemix.Aries.C37_responses_violated",
    "Idemix.Aries.C37_extraction_partial",
    "Idemix.Aries.C37_nonce_binding_partial"
   ],
   "note": "violated: the challenge covers another commitment than the one verified, and the number of responses is not checked (C37_violated, C37_responses_violated); extraction of an opening, and binding to the nonce, for requests of the honest shape"
  },
  {
   "property": "C38",
   "status": "partial",
   "theorems": [
    "Idemix.Aries.C38_verify_exact",
    "Idemix.Aries.C38_position_violated"
   ],
   "note": "violated: an issuer never sets the position of the secret, so credentials for other positions fail (C38_position_violated); acceptance is characterised exactly"
  },
  {
   "property": "C39",
   "status": "partial",
   "theorems": [
    "Idemix.Aries.C39_signatures_verify_partial",
    "Idemix.Aries.C39_position_violated"
   ],
   "note": "Signatures of every defined kind verify under every matching verification kind and the returned metadata opens the commitments. Excluded: disclosing an attribute in front of the secret key, where Sign panics (C39_position_violated), and negligible draws (Apart, r1 = 0)."
  },
  {
   "property": "C40",
   "status": "partial",
   "theorems": [
    "Idemix.Aries.C40_extraction_partial",
    "Idemix.Aries.C40_violated",
    "Idemix.Aries.C40_disclosure_violated"
   ],
   "note": "The full statement is false of the code: C40_violated forges a signature from public data alone, C40_disclosure_violated has a signature disclosing nothing accepted with any claimed attribute list. Extraction holds for well-formed proofs."
  },
  {
   "property": "C41",
   "status": "partial",
   "theorems": [
    "Idemix.Aries.C41_eid_partial",
    "Idemix.Aries.C41_rh_partial",
    "Idemix.Aries.C41_violated"
   ],
   "note": "Two accepted signatures with the same first message and different challenges bind the carried pseudonyms to the attribute at the index in the signature (C41_eid_partial, C41_rh_partial). The index is taken from the signature and not from the verifier: C41_violated."
  },
  {
   "property": "C42",
   "status": "partial",
   "theorems": [
    "Idemix.Aries.C42_binding_partial",
    "Idemix.Aries.C42_complete",
    "Idemix.Aries.C42_violated",
    "Idemix.Aries.C42_extraction_partial"
   ],
   "note": "violated: the number of responses is not checked (C42_violated); completeness, and for two responses extraction and binding to the message"
  },
  {
   "property": "C43",
   "status": "partial",
   "theorems": [
    "Idemix.Aries.C43_nym_signatures_verify",
    "Idemix.Aries.C43_signatures_verify_partial",
    "Idemix.Aries.C43_nym_verify_exact",
    "Idemix.Aries.C43_extraction"
   ],
   "note": "Pseudonym signatures always verify, acceptance is characterised exactly, two transcripts open the pseudonym. Smartcard credential signatures verify outside the negligible draws excluded by Apart and r1 = 0."
  },
  {
   "property": "C44",
   "status": "partial",
   "theorems": [
    "Idemix.Aries.C44_derivation_inputs",
    "Idemix.Aries.C44_repeats",
    "Idemix.Aries.C44_inputs_distinct_partial",
    "Idemix.Aries.C44_violated"
   ],
   "note": "The property is false: the counter is a 16-bit integer. C44_repeats gives the exact condition, C44_inputs_distinct_partial the distinctness of 65536 successive inputs, C44_violated the reuse afterwards."
  },
  {
   "property": "C45",
   "status": "partial",
   "theorems": [
    "Idemix.Aries.C45_aries_user_key",
    "Idemix.Aries.C45_aries_nym",
    "Idemix.Aries.C45_aries_public_nym",
    "Idemix.Dlog.C45_dlog_user_key",
    "Idemix.Dlog.C45_dlog_nym_roundtrip",
    "Idemix.Dlog.C45_dlog_nym_too_short",
    "Idemix.Dlog.C45_dlog_amcl_exact_length",
    "Idemix.Dlog.C45_dlog_gurvy_violated"
   ],
   "note": "both schemes; violated by the gnark translator"
  },
  {
   "property": "C46",
   "status": "partial",
   "theorems": [
    "Idemix.Provider.C46_last_registration",
    "Idemix.Provider.C46_bad_registration",
    "Idemix.Provider.C46_constructor",
    "Idemix.Provider.C46_sign_dispatch_partial",
    "Idemix.Provider.C46_verify_dispatch_partial",
    "Idemix.Provider.C46_base_sign_partial",
    "Idemix.Provider.C46_base_verify_partial",
    "Idemix.Provider.C46_violated",
    "Idemix.Provider.C46_C47_keyGen",
    "Idemix.Provider.C46_C47_keyDeriv",
    "Idemix.Provider.C46_C47_keyImport"
   ],
   "note": "violated: an option of the other scheme reaches a nil handler and panics (C46_violated); dispatch is otherwise exact for every registry and every operation; also for providers assembled by hand (C46_base_sign_partial, C46_base_verify_partial), which refuse empty digests"
  },
  {
   "property": "C47",
   "status": "proved",
   "theorems": [
    "Idemix.Provider.C47_history"
   ],
   "note": "every history of operations over an arbitrary key store"
  },
  {
   "property": "C48",
   "status": "partial",
   "theorems": [
    "Idemix.Provider.C48_lookup_partial",
    "Idemix.Provider.C48_store_result",
    "Idemix.Provider.C48_violated",
    "Idemix.Provider.C48_provider_history_partial",
    "Idemix.Provider.C48_files_keep",
    "Idemix.Provider.C48_dummy"
   ],
   "note": "violated: the file name of a pseudonym key is not the identifier of the key (C48_violated); lookup is proved for identifiers as they are stored"
  },
  {
   "property": "C49",
   "status": "partial",
   "theorems": [
    "Idemix.Provider.C49_others_partial",
    "Idemix.Provider.C49_stored_key_partial",
    "Idemix.Provider.C49_never_wrong",
    "Idemix.Provider.C49_history_never_wrong",
    "Idemix.Provider.C49_reported",
    "Idemix.Provider.C49_violated",
    "Idemix.Provider.C49_open"
   ],
   "note": "violated: a crash in the middle of a write loses the stored key (C49_violated); no history of crashes ever yields a wrong key (C49_history_never_wrong)"
  },
  {
   "property": "C50",
   "status": "proved",
   "theorems": [
    "Idemix.Provider.C50_inside_directory",
    "Idemix.Provider.C50_empty_identifier",
    "Idemix.Provider.C50_injective",
    "Idemix.Provider.C50_same_place",
    "Idemix.Provider.C50_place"
   ],
   "note": "every directory and identifier; lexical path cleaning as filepath.Join does it"
  },
  {
   "property": "C51",
   "status": "proved",
   "theorems": [
    "Idemix.Provider.C51_private",
    "Idemix.Provider.C51_made_keys_sealed",
    "Idemix.Provider.C51_history_sealed",
    "Idemix.Provider.C51_public_keys",
    "Idemix.Provider.C51_dlog_issuer_exports",
    "Idemix.Provider.C51_aries_issuer_exports"
   ],
   "note": "every history, key store and scheme; look-ups over a file store that held no exportable secret"
  },
  {
   "property": "C52",
   "status": "partial",
   "theorems": [
    "Idemix.Provider.C52_user_key",
    "Idemix.Provider.C52_revocation_key",
    "Idemix.Provider.C52_dlog_nym",
    "Idemix.Provider.C52_aries_nym",
    "Idemix.Provider.C52_dlog_issuer",
    "Idemix.Provider.C52_aries_issuer",
    "Idemix.Provider.C52_nym_key_violated",
    "Idemix.Provider.C52_nym_key_partial",
    "Idemix.Provider.C52_revocation_public_violated",
    "Idemix.Provider.C52_revocation_public_partial"
   ],
   "note": "violated for pseudonym secrets (C52_nym_key_violated) and revocation public keys (C52_revocation_public_violated), whose exported form is refused by the import; the other kinds round trip in both schemes"
  },
  {
   "property": "C53",
   "status": "partial",
   "theorems": [
    "Idemix.Msp.C53_aries_violated",
    "Idemix.Msp.C53_dlog_no_panic",
    "Idemix.Msp.C53_policies",
    "Idemix.Msp.C53_principal_exact",
    "Idemix.Msp.C53_no_panic_partial",
    "Idemix.Msp.C53_signing_violated",
    "Idemix.Msp.C53_nil_violated",
    "Idemix.Msp.C53_signing_partial"
   ],
   "note": "evaluation is exactly the meaning of the principal, for any nesting; no panic for deserialized identities of dlog MSPs (C53_dlog_no_panic). Violated: panics for signing identities (C53_signing_violated), a nil principal (C53_nil_violated), and malformed proofs of aries MSPs (C53_aries_violated)"
  },
  {
   "property": "C54",
   "status": "proved",
   "theorems": [
    "Idemix.Msp.C54_mask_bits",
    "Idemix.Msp.C54_contains_iff_mem",
    "Idemix.Msp.C54_single_role",
    "Idemix.Msp.C54_masks_determine_sets",
    "Idemix.Msp.C54_msp_roles"
   ],
   "note": "bit-exact on 64-bit ints; the membership claim is for the four defined roles, C54_mask_bits covers all integers"
  },
  {
   "property": "C55",
   "status": "proved",
   "theorems": [
    "Idemix.Msp.C55_round_trip",
    "Idemix.Msp.C55_other_msp_refused",
    "Idemix.Msp.C55_deserialized"
   ],
   "note": "every identity whose pseudonym key round trips, which C52 shows for both schemes"
  },
  {
   "property": "C56",
   "status": "partial",
   "theorems": [
    "Idemix.Msp.C56_violated",
    "Idemix.Msp.C56_verify_exact",
    "Idemix.Msp.C56_impersonation_violated",
    "Idemix.Msp.C56_partial"
   ],
   "note": "violated: the pseudonym plays no part in validation (C56_violated), anyone can attach a pseudonym of theirs to a valid proof and sign (C56_impersonation_violated)"
  },
  {
   "property": "C57",
   "status": "partial",
   "theorems": [
    "Idemix.Msp.C57_validate_exact",
    "Idemix.Msp.C57_own_identities_partial",
    "Idemix.Msp.C57_violated",
    "Idemix.Msp.C57_deserialized"
   ],
   "note": "violated: identities of other MSP objects of the same name are validated against those objects (C57_violated); exact for identities that belong to the MSP, in particular deserialized ones"
  },
  {
   "property": "C58",
   "status": "partial",
   "theorems": [
    "Idemix.Msp.C58_setup_exact",
    "Idemix.Msp.C58_nil_config",
    "Idemix.Msp.C58_empty_key_violated",
    "Idemix.Msp.C58_aries_key_violated",
    "Idemix.Msp.C58_gurvy_key_violated",
    "Idemix.Msp.C58_half_configured_violated",
    "Idemix.Msp.C58_renamed_violated",
    "Idemix.Msp.C58_failed_partial",
    "Idemix.Msp.C58_dlog_no_panic_partial"
   ],
   "note": "violated: an empty issuer key, any bad key of an aries MSP and missing points on the Gurvy curves make set-up panic, and a failed set-up leaves name, provider and keys set (C58_empty_key_violated, C58_aries_key_violated, C58_gurvy_key_violated, C58_half_configured_violated, C58_renamed_violated); exact conditions of success and final state, no panic for dlog MSPs with an issuer key on the other curves, signer kept on failure"
  },
  {
   "property": "C59",
   "status": "partial",
   "theorems": [
    "Idemix.Gen.C59_curve_violated",
    "Idemix.Gen.C59_keygen_refuses",
    "Idemix.Gen.C59_keygen_keeps",
    "Idemix.Gen.C59_signer_refuses",
    "Idemix.Gen.C59_signer_keeps",
    "Idemix.Gen.C59_keygen_writes",
    "Idemix.Gen.C59_race_violated",
    "Idemix.Gen.C59_dlog_end_to_end",
    "Idemix.Gen.C59_aries_end_to_end",
    "Idemix.Gen.C59_dlog_accepted",
    "Idemix.Gen.C59_refused",
    "Idemix.Gen.C59_aries_accepted",
    "Idemix.Gen.C59_utf8_refused"
   ],
   "note": "generated material of both schemes is accepted (C59_dlog_accepted, C59_aries_accepted) and so are the files the two commands leave (C59_dlog_end_to_end, C59_aries_end_to_end); empty values and non-UTF-8 values are refused, existing directories are kept; violated for concurrent runs: the check and the writes are not atomic (C59_race_violated); and for curves other than the default one of the scheme, which the configuration read from the files does not name (C59_curve_violated)"
  },
  {
   "property": "C60",
   "status": "proved",
   "theorems": [
    "Idemix.WeakBB.C60_signature_verifies",
    "Idemix.WeakBB.C60_only_signed_message",
    "Idemix.WeakBB.C60_unique",
    "Idemix.WeakBB.C60_nil_refused"
   ],
   "note": "all keys, messages and points; also uniqueness of signatures"
  },
  {
   "property": "C61",
   "status": "partial",
   "theorems": [
    "Idemix.Aries.C61_verify_violated",
    "Idemix.Aries.C61_small_objects",
    "Idemix.Aries.C61_verify_partial",
    "Idemix.Aries.C61_issuance_violated",
    "Idemix.Msp.C61_remote_violated"
   ],
   "note": "violated: short signatures, requests and credentials make aries verification panic (C61_verify_violated, C61_issuance_violated, C61_remote_violated); no panic for well-shaped signatures, nor for pseudonym signatures and revocation information"
  },
  {
   "property": "C62",
   "status": "partial",
   "theorems": [
    "Idemix.Gen.C62_interrupted_keygen",
    "Idemix.Gen.C62_signer_after",
    "Idemix.Gen.C62_no_repetition",
    "Idemix.Gen.C62_unnoticed_violated"
   ],
   "note": "violated: an authority whose files for MSPs are incomplete goes unnoticed (C62_unnoticed_violated), and key generation refuses to be repeated (C62_no_repetition); the rest is proved"
  },
  {
   "property": "C63",
   "status": "partial",
   "theorems": [
    "Idemix.Aries.C63_message_binding_partial",
    "Idemix.Aries.C63_disclosure_binding_partial",
    "Idemix.Aries.C63_violated"
   ],
   "note": "violated: the number of responses in a proof is not checked, so one signature is accepted for two disclosures (C63_violated); the proved parts bind message and disclosed attributes up to an explicit hash collision for signatures with the right number of responses, for the types with and without a smartcard"
  },
  {
   "property": "C64",
   "status": "proved",
   "theorems": [
    "Idemix.Aries.C64_aries_anonymity"
   ],
   "note": "all five signature types and every position of the secret in front of the disclosed attributes; the users sign without supplied metadata; tapes restricted to r1 nonzero and, for commitments, to the non-degenerate draws of C39"
  },
  {
   "property": "C65",
   "status": "proved",
   "theorems": [
    "Idemix.Bbs.C65_hidden_messages_hidden"
   ],
   "note": "every public key, message count, revealed set and nonce; tapes restricted to r1 nonzero"
  },
  {
   "property": "C66",
   "status": "proved",
   "theorems": [
    "Idemix.Msp.C66_agreement"
   ],
   "note": "both schemes, all worlds; the two MSPs have the same version, and principals are compared for acceptance"
  },
  {
   "property": "C67",
   "status": "proved",
   "theorems": [
    "Idemix.Gen.C67_dlog_recognised",
    "Idemix.Gen.C67_aries_recognised"
   ],
   "note": "generated material of both schemes; the random choices excluded are those of C59"
  },
  {
   "property": "C68",
   "status": "proved",
   "theorems": [
    "Idemix.Provider.C68_dlog_life_cycle",
    "Idemix.Provider.C68_aries_life_cycle"
   ],
   "note": "both schemes, with temporary keys; the draws excluded are the degenerate ones named in Spec.DlogDraws and Spec.AriesDraws; unblinding in the aries scheme is the call of CredRequest.Unblind, since the provider has no operation for it"
  },
  {
   "property": "C69",
   "status": "partial",
   "theorems": [
    "Idemix.Aries.C69_aries_kinds_partial",
    "Idemix.Aries.C69_aries_request_exact",
    "Idemix.Aries.C69_aries_request_violated",
    "Idemix.Dlog.C69_dlog_kinds_partial",
    "Idemix.Dlog.C69_nym_and_standard_partial",
    "Idemix.Dlog.C69_nym_violated"
   ],
   "note": "violated for dlog pseudonym signatures against signatures without committed attributes, which share a label (C69_nym_violated), and for aries requests against the final hash of signatures (C69_aries_request_violated); all other pairs are proved, and the exact condition of coincidence in these two cases"
  },
  {
   "property": "C70",
   "status": "partial",
   "theorems": [
    "Idemix.Provider.C70_others_partial",
    "Idemix.Provider.C70_alone",
    "Idemix.Provider.C70_never_wrong_partial",
    "Idemix.Provider.C70_settled_partial",
    "Idemix.Provider.C70_lookup_violated",
    "Idemix.Provider.C70_settled_violated"
   ],
   "note": "violated: a look-up during a second store of the same key can fail (C70_lookup_violated), and stores of one secret with different exportable flags can leave an unreadable file (C70_settled_violated); proved: other keys are never affected, stores of the same key never give a wrong key and end with the key readable"
  },
  {
   "property": "C71",
   "status": "partial",
   "theorems": [
    "Idemix.Aries.C71_aries_requests_hide_secrets",
    "Idemix.Dlog.C71_dlog_requests_linkable_violated",
    "Idemix.Dlog.C71_dlog_requests_simulated_partial"
   ],
   "note": "proved for the aries scheme; violated by the dlog scheme, whose requests carry an unblinded power of the secret (C71_dlog_requests_linkable_violated) and nothing else that could not be simulated (C71_dlog_requests_simulated_partial)"
  },
  {
   "property": "C72",
   "status": "proved",
   "theorems": [
    "Idemix.Aries.C72_aries_pseudonyms_hide_users",
    "Idemix.Dlog.C72_pseudonyms_hide_users",
    "Idemix.Fork.C72_adaptive"
   ],
   "note": "both schemes; for the dlog scheme also against observers that choose the messages adaptively (C72_adaptive)"
  },
  {
   "property": "C73",
   "status": "partial",
   "theorems": [
    "Idemix.Msp.C73_dlog_identity_rests_on_credential",
    "Idemix.Msp.C73_aries_identity_rests_on_credential_partial"
   ],
   "note": "dlog: proved, with the extractor of C10. aries: proved for proofs with the right number of responses that reveal the positions the verifier expects, which the code does not check (C40_violated, C40_disclosure_violated). The pseudonym stored in the identity is not tied to the proof (C56_violated); the theorems speak of the pseudonym in the proof"
  },
  {
   "property": "C74",
   "status": "partial",
   "theorems": [
    "Idemix.Mem.C74_arguments_unchanged_partial",
    "Idemix.Mem.C74_violated",
    "Idemix.Mem.C74_only_slice_sorted_partial",
    "Idemix.Mem.C74_in_turn_partial"
   ],
   "note": "BBS+ library. violated by the derivation of proofs, which sorts the slice of the caller (C74_violated); everything else is unchanged, and the outcome right, also then (C74_only_slice_sorted_partial)"
  },
  {
   "property": "C75",
   "status": "partial",
   "theorems": [
    "Idemix.Mem.C75_concurrent_calls_partial",
    "Idemix.Mem.C75_violated",
    "Idemix.Mem.C75_races_violated",
    "Idemix.Mem.C75_no_races_partial",
    "Idemix.Mem.C75_calls_return"
   ],
   "note": "BBS+ library. violated if goroutines share an unsorted slice of indices (C75_violated, C75_races_violated); proved for all other sharing, with freedom from races and progress"
  },
  {
   "property": "C76",
   "status": "partial",
   "theorems": [
    "Idemix.Gen.C76_dlog_members_hidden_partial",
    "Idemix.Gen.C76_aries_members_hidden_partial",
    "Idemix.Gen.C76_dlog_marked_violated",
    "Idemix.Gen.C76_aries_marked_violated"
   ],
   "note": "both schemes. violated for material of the generator: the revocation information of a signer configuration is signed anew for each configuration and marks all its identities (C76_dlog_marked_violated, C76_aries_marked_violated). proved for members with the same revocation information"
  },
  {
   "property": "C77",
   "status": "partial",
   "theorems": [
    "Idemix.Provider.C77_panic_exact",
    "Idemix.Provider.C77_no_panic_partial",
    "Idemix.Provider.C77_panic_violated",
    "Idemix.Provider.C77_names_partial",
    "Idemix.Provider.C77_violated"
   ],
   "note": "violated: the key that was read is not compared with the identifier asked for (C77_violated), and with the translator for curves other than FP256BN a file without a point makes GetKey panic (C77_panic_violated). proved: exactly when a look-up panics, that it does not with the FP256BN translators, and that stores leave every key under its own identifier"
  },
  {
   "property": "C78",
   "status": "partial",
   "theorems": [
    "Idemix.Mem.C78_arguments_unchanged_partial",
    "Idemix.Mem.C78_check_sets_hash",
    "Idemix.Mem.C78_check_again",
    "Idemix.Mem.C78_violated",
    "Idemix.Mem.C78_in_turn_partial"
   ],
   "note": "all calls of the scheme and of weak-BB except IssuerPublicKey.Check on an existing key object, which sets its hash (C78_violated); its exact effect is C78_check_sets_hash, and none on a key that has been checked before: C78_check_again"
  },
  {
   "property": "C79",
   "status": "partial",
   "theorems": [
    "Idemix.Mem.C79_concurrent_calls_partial",
    "Idemix.Mem.C79_violated",
    "Idemix.Mem.C79_races_violated",
    "Idemix.Mem.C79_no_races_partial",
    "Idemix.Mem.C79_calls_return"
   ],
   "note": "violated if a goroutine checks a key object that another is using (C79_violated, C79_races_violated); proved for all other calls and any sharing, with freedom from races and progress"
  },
  {
   "property": "C80",
   "status": "proved",
   "theorems": [
    "Idemix.Provider.C80_grammar",
    "Idemix.Provider.C80_rewritten",
    "Idemix.Provider.C80_refused",
    "Idemix.Provider.C80_source",
    "Idemix.Provider.C80_same_value",
    "Idemix.Provider.C80_written"
   ],
   "note": "Text is RFC 8259 with a depth limit of 10000; Describes says which values describe a key; MadeOf says that the parts of a key are in a value"
  },
  {
   "property": "C81",
   "status": "partial",
   "theorems": [
    "Idemix.Gen.C81_torn_file",
    "Idemix.Gen.C81_wellFormed",
    "Idemix.Gen.C81_interrupted_signer",
    "Idemix.Gen.C81_verifier",
    "Idemix.Gen.C81_dlog_partial",
    "Idemix.Gen.C81_dlog_violated",
    "Idemix.Gen.C81_aries"
   ],
   "note": "aries: proved, if the enrolment id does not hash like the empty one. dlog: violated if the file is cut after the enrolment id and before the revocation information, which set-up does not check (C81_dlog_violated); proved for all other interruptions (C81_dlog_partial)"
  },
  {
   "property": "C82",
   "status": "partial",
   "theorems": [
    "Idemix.Aries.C82_blind_scalars",
    "Idemix.Aries.C82_blind_messages",
    "Idemix.Aries.C82_all_hidden",
    "Idemix.Aries.C82_short_violated",
    "Idemix.Aries.C82_empty_violated",
    "Idemix.Aries.C82_forged_violated",
    "Idemix.Aries.C82_extraction_partial",
    "Idemix.Aries.C82_requests_hide"
   ],
   "note": "completeness (C82_blind_messages, C82_blind_scalars) and perfect hiding (C82_requests_hide) are proved; an empty message cannot be hidden and requests that do not fit crash the signer (C82_empty_violated, C82_short_violated); requests can be forged (C82_forged_violated), knowledge is extracted from those in which the commitment of the proof is the one hashed (C82_extraction_partial)"
  },
  {
   "property": "C83",
   "status": "partial",
   "theorems": [
    "Idemix.Msp.C83_msp_partial",
    "Idemix.Msp.C83_type_violated",
    "Idemix.Msp.C83_signer",
    "Idemix.Msp.C83_no_signer_partial",
    "Idemix.Msp.C83_stale_signer_violated",
    "Idemix.Msp.C83_deserialized",
    "Idemix.Gen.C83_certifier"
   ],
   "note": "violated: MSPs of the aries scheme report the type of the dlog scheme (C83_type_violated), and set-up without signer keeps the signer of the previous set-up, which then reports the new name with the old MSP in its identifier (C83_stale_signer_violated); the rest is proved"
  },
  {
   "property": "C84",
   "status": "partial",
   "theorems": [
    "Idemix.Gen.C84_dlog_certified",
    "Idemix.Gen.C84_aries_certified",
    "Idemix.Gen.C84_masks_violated",
    "Idemix.Gen.C84_aries_masks_violated",
    "Idemix.Gen.C84_keys_violated"
   ],
   "note": "violated: the generating functions take masks with several bits, and the dlog one keys that do not belong together; MSPs refuse the signers made from them (C84_masks_violated, C84_aries_masks_violated, C84_keys_violated); that accepted signers have what their credentials certify is proved for both schemes"
  },
  {
   "property": "C85",
   "status": "proved",
   "theorems": [
    "Idemix.Mem.C85_arguments_unchanged",
    "Idemix.Mem.C85_in_turn",
    "Idemix.Mem.C85_card_counter"
   ],
   "note": "every call of the scheme; NymEid, whose purpose it is to count, is described exactly by C85_card_counter"
  },
  {
   "property": "C86",
   "status": "partial",
   "theorems": [
    "Idemix.Mem.C86_concurrent_calls_partial",
    "Idemix.Mem.C86_no_races_partial",
    "Idemix.Mem.C86_own_cards",
    "Idemix.Mem.C86_own_cards_no_races",
    "Idemix.Mem.C86_card_violated",
    "Idemix.Mem.C86_card_races_violated",
    "Idemix.Mem.C86_calls_return"
   ],
   "note": "violated if two goroutines call NymEid on one card (C86_card_violated, C86_card_races_violated); proved for all other calls and any sharing, for goroutines that have their own cards (C86_own_cards), with freedom from races and progress"
  },
  {
   "property": "C87",
   "status": "proved",
   "theorems": [
    "Idemix.Forge.C87_same_view",
    "Idemix.Forge.C87_sound",
    "Idemix.Forge.C87_solved",
    "Idemix.Forge.C87_guess",
    "Idemix.Forge.C87_coins",
    "Idemix.Forge.C87_credentials",
    "Idemix.Forge.C87_signatures"
   ],
   "note": "the forger is any function of its view; the requests come with their secrets (C05 extracts them); the reduction guesses which credential has the e of the forgery (C87_guess), the base point is part of its problem and the challenge of the proof in the key is programmed, as in the random oracle model"
  },
  {
   "property": "C88",
   "status": "partial",
   "theorems": [
    "Idemix.Aries.C88_violated",
    "Idemix.ForgeAries.C88_same_view_partial",
    "Idemix.ForgeAries.C88_sound_partial",
    "Idemix.ForgeAries.C88_solved_partial",
    "Idemix.ForgeAries.C88_exponents",
    "Idemix.ForgeAries.C88_requests",
    "Idemix.ForgeAries.C88_credentials",
    "Idemix.ForgeAries.C88_signatures",
    "Idemix.Gen.C88_admin_violated"
   ],
   "note": "violated: the issuer signs a commitment whose opening the user need not know, and so certifies any attributes (C88_violated), up to an administrator that every MSP accepts (C88_admin_violated); for requests with known openings, such as those that Blind makes (C88_requests), forging credentials or signatures is reduced to the strong Diffie-Hellman problem as in C87 (C88_same_view_partial, C88_sound_partial, C88_solved_partial)"
  },
  {
   "property": "C89",
   "status": "proved",
   "theorems": [
    "Idemix.Fork.C89_knowledge",
    "Idemix.Fork.C89_impostors",
    "Idemix.Fork.C89_pseudonyms"
   ],
   "note": "in the random oracle model, by counting over all answers of the hash function; the values asked for are fixed before the signature is made, the credentials of an impostor are obtained before the hash questions of the attack, and best-effort verification is excluded (C90, C12)"
  },
  {
   "property": "C90",
   "status": "partial",
   "theorems": [
    "Idemix.Fork.C90_violated",
    "Idemix.Fork.C90_collection_partial",
    "Idemix.Fork.C90_credential_partial"
   ],
   "note": "violated: the challenge does not depend on the disclosed values, so that a holder can make accepted signatures for values that they do not control but that differ from those of the credential (C90_violated); for values from a collection that is small compared with the field the property holds in the random oracle model (C90_collection_partial), and a credential is needed for any values (C90_credential_partial)"
  },
  {
   "property": "C91",
   "status": "proved",
   "theorems": [
    "Idemix.Fork.C91_owner_pseudonym",
    "Idemix.Fork.C91_owner_signs",
    "Idemix.Fork.C91_pseudonyms_unforgeable"
   ],
   "note": "in the random oracle model, by counting over all choices of the owner and all answers of the hash function; the attacker sees pseudonym signatures, not other signatures with the same secret; the blinding generator of the issuer key is not zero"
  },
  {
   "property": "C92",
   "status": "partial",
   "theorems": [
    "Idemix.Msp.C92_read_partial",
    "Idemix.Msp.C92_serialized_partial",
    "Idemix.Msp.C92_same_everywhere",
    "Idemix.Msp.C92_violated"
   ],
   "note": "violated: identities without content are well formed although no MSP reads them, and a nil identity panics (C92_violated); the other direction holds"
  },
  {
   "property": "C93",
   "status": "proved",
   "theorems": [
    "Idemix.Fork.C93_pseudonyms",
    "Idemix.Fork.C93_credential",
    "Idemix.Fork.C93_shows",
    "Idemix.Fork.C93_pseudonyms_with_credentials"
   ],
   "note": "in the random oracle model, by counting over all choices of the user and all answers of the hash function; the attacker does not know the number s of the credential, so the issuer of the credential itself is not covered, and presentations draw their own pseudonym metadata; the blinding generator of the issuer key is not zero, and the labels of the transcripts can be told apart"
  },
  {
   "property": "C94",
   "status": "proved",
   "theorems": [
    "Idemix.Fork.C94_pseudonyms",
    "Idemix.Fork.C94_members_answer",
    "Idemix.Fork.C94_unlinkable"
   ],
   "note": "in the random oracle model; up to the fraction (number of requests)/|F| of plays, in which the blinding of a presentation is zero, which the code does not exclude; who may own a pseudonym is fixed before the first request, for as many pseudonyms as one likes; presentations draw their own pseudonym metadata"
  },
  {
   "property": "C95",
   "status": "partial",
   "theorems": [
    "Idemix.Aries.C95_aries_partial",
    "Idemix.Aries.C95_aries_revocation_violated",
    "Idemix.Dlog.C95_dlog_partial",
    "Idemix.Dlog.C95_dlog_issuer_key_partial",
    "Idemix.Dlog.C95_dlog_revocation_partial",
    "Idemix.Dlog.C95_dlog_issuer_key_violated",
    "Idemix.Dlog.C95_dlog_revocation_violated",
    "Idemix.Msp.C95_msp",
    "Idemix.Msp.C95_msp_directory"
   ],
   "note": "violated for the hash of dlog issuer public keys and for the verification of revocation information (C95_dlog_issuer_key_violated, C95_dlog_revocation_violated, C95_aries_revocation_violated); proved for everything else; what Serialize writes for identities that were read with undeclared fields in their unit or role is not modelled"
  },
  {
   "property": "C96",
   "status": "proved",
   "theorems": [
    "Idemix.ForgeBbs.C96_same_view",
    "Idemix.ForgeBbs.C96_sound",
    "Idemix.ForgeBbs.C96_solved",
    "Idemix.ForgeBbs.C96_same_messages",
    "Idemix.ForgeBbs.C96_signatures",
    "Idemix.ForgeBbs.C96_proofs",
    "Idemix.ForgeBbs.C96_forgery",
    "Idemix.ForgeBbs.C96_exponents",
    "Idemix.ForgeBbs.C96_guess"
   ],
   "note": "the forger is any function of its view; the reduction guesses which signature is attacked (C96_guess), programs the generators, and fails for one in |F| of its other choices; proofs that VerifyProof accepts give forgeries by C96_proofs"
  },
  {
   "property": "C97",
   "status": "proved",
   "theorems": [
    "Idemix.Fork.C97_issuer_keys",
    "Idemix.Fork.C97_requests"
   ],
   "note": "the prover is any strategy that asks the hash function; the extractors are those of C01 and C04, applied to two plays; ideal hash function"
  },
  {
   "property": "C98",
   "status": "partial",
   "theorems": [
    "Idemix.Bbs.C98_violated",
    "Idemix.Fork.C98_knowledge_partial",
    "Idemix.Fork.C98_impostors_partial"
   ],
   "note": "violated by VerifyProofFr, whose challenge does not cover the disclosed messages (C98_violated); proved for verifiers who fix the messages and check the payload and the number of responses (C98_knowledge_partial, C98_impostors_partial); ideal hash function"
  },
  {
   "property": "C99",
   "status": "partial",
   "theorems": [
    "Idemix.Fork.C99_requests_partial",
    "Idemix.Fork.C99_nym_signatures_partial",
    "Idemix.Fork.C99_card_signatures"
   ],
   "note": "card signatures: proved (C99_card_signatures); requests and pseudonym signatures: for verifiers who also check the number of responses, and for requests that the hashed first message is the one used, without which the property is violated (C37_violated, C37_responses_violated, C42_violated); ideal hash function"
  },
  {
   "property": "C100",
   "status": "partial",
   "theorems": [
    "Idemix.Fork.C100_knowledge_partial",
    "Idemix.Fork.C100_impostors_partial"
   ],
   "note": "for verifiers who also check which positions are disclosed, the number of responses and the length of the pseudonym, and issuers who know what is in the requests, without which the property is violated (C40_violated, C40_disclosure_violated, C88_violated); no smart cards; ideal hash function"
  },
  {
   "property": "C101",
   "status": "proved",
   "theorems": [
    "Idemix.Aries.C101_aries_exact",
    "Idemix.Aries.C101_aries",
    "Idemix.Dlog.C101_dlog",
    "Idemix.Dlog.C101_dlog_exact",
    "Idemix.Msp.C101_msp",
    "Idemix.Msp.C101_msp_exact"
   ],
   "note": ""
  },
  {
   "property": "C102",
   "status": "partial",
   "theorems": [
    "Idemix.Gen.C102_succeeds",
    "Idemix.Gen.C102_contents",
    "Idemix.Gen.C102_type_partial",
    "Idemix.Gen.C102_type_violated",
    "Idemix.Gen.C102_setup"
   ],
   "note": "all but the type is proved; a type of 2^31 or more is cut to 32 bits (C102_type_violated), so that types which do not exist are taken for existing ones and negative types come about; C102_setup is for types below 2^31"
  },
  {
   "property": "C103",
   "status": "partial",
   "theorems": [
    "Idemix.Aries.C103_aries_bytes_violated",
    "Idemix.Aries.C103_aries_nym_signature_partial",
    "Idemix.Aries.C103_aries_signature_partial",
    "Idemix.Aries.C103_card_violated",
    "Idemix.Aries.C103_card_partial",
    "Idemix.Aries.C103_aries_commitments_partial",
    "Idemix.Dlog.C103_bytes_violated",
    "Idemix.Dlog.C103_revocation_fields_violated",
    "Idemix.Dlog.C103_nym_signature_partial",
    "Idemix.Dlog.C103_signature_partial"
   ],
   "note": "the content, with collisions and relations computed from the two signatures, is proved for dlog signatures, for aries signatures, for pseudonym signatures of both schemes and for cards; the bytes can be altered (C103_bytes_violated, C103_aries_bytes_violated, C103_card_violated), and so can the revocation information in a dlog signature (C103_revocation_fields_violated); aries signatures with a wrong number of responses can be forged outright (C40_violated); the theorem for those with commitments to attributes takes the right number of responses and commitments encoded with equal lengths as hypotheses"
  },
  {
   "property": "C104",
   "status": "partial",
   "theorems": [
    "Idemix.Msp.C104_attribution_violated",
    "Idemix.Msp.C104_dlog_partial",
    "Idemix.Msp.C104_aries_partial"
   ],
   "note": "the message, the pseudonym and the hash of the issuer key are bound in the dlog scheme; in the aries scheme the message is bound for one pseudonym and two pseudonyms must be proportional by the two challenges, for one provider and signatures with two responses (C42_violated); unit and role are not bound, since the pseudonym of an identity is not tied to its proof (C104_attribution_violated)"
  },
  {
   "property": "C105",
   "status": "partial",
   "theorems": [
    "Idemix.Aries.C105_aries_violated",
    "Idemix.Aries.C105_aries_eid_partial",
    "Idemix.Aries.C105_aries_rh_partial",
    "Idemix.Dlog.C105_enrollment_violated",
    "Idemix.Dlog.C105_handle_violated",
    "Idemix.Dlog.C105_dlog_partial"
   ],
   "note": "proved for verification types that ask for the commitment in question, for none, or for what there is, up to a computed relation between the generators (aries: under the hypotheses of C41_eid_partial); for the others the property is violated (C105_enrollment_violated, C105_handle_violated, C105_aries_violated)"
  },
  {
   "property": "C106",
   "status": "partial",
   "theorems": [
    "Idemix.Aries.C106_aries_signatures_partial",
    "Idemix.Aries.C106_aries_nym_signatures_partial",
    "Idemix.Dlog.C106_dlog_signatures",
    "Idemix.Dlog.C106_dlog_nym_signatures"
   ],
   "note": "proved for the dlog scheme, up to a computed relation between the bases; for the aries scheme under the hypotheses of C40_extraction_partial and C42_extraction_partial, without which signatures can be forged (C40_violated, C42_violated)"
  },
  {
   "property": "C107",
   "status": "partial",
   "theorems": [
    "Idemix.Aries.C107_aries_enrollment_partial",
    "Idemix.Aries.C107_aries_handle_partial",
    "Idemix.Dlog.C107_dlog_enrollment_partial",
    "Idemix.Dlog.C107_dlog_handle_partial"
   ],
   "note": "proved, up to a computed relation between the generators, for verification types that ask for the commitment or for what there is (in the aries scheme under the hypotheses of C41_eid_partial); with the others the commitment is not checked (C105_enrollment_violated, C105_handle_violated, C105_aries_violated), and in the aries scheme it need not be for the attribute at the index (C41_violated)"
  }
 ]
}