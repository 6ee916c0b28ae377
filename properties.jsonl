{"id": "C01", "title": "Generated issuer keys validate", "statement": "For every list of distinct attribute names and every non-degenerate choice of randomness, the issuer public key produced by key generation passes the public-key validation an importer runs, and importing its serialisation succeeds.", "quantifier": "all attribute-name lists (any length), all random choices, all curves of the abstract suite", "why_tests_cant": "A test runs a handful of name lists and seeds; validity must hold for every random exponent and every list length.", "anchors": ["bccsp/schemes/dlog/crypto/issuerkey.go: newIssuerKey, Check", "bccsp/schemes/dlog/bridge/issuer.go: NewKey, NewPublicKeyFromBytes"]}
{"id": "C02", "title": "Issuer key generation and import enforce the attribute list", "statement": "Key generation fails exactly when two attribute names coincide. Importing an issuer public key with a non-empty expected list succeeds only if the key's list of attribute names equals the expected list, element by element and in order, and mismatches are reported with the documented error category.", "quantifier": "all attribute lists, all keys", "why_tests_cant": "The set of name lists is infinite; tests cover a few permutations.", "anchors": ["bccsp/schemes/dlog/crypto/issuerkey.go: newIssuerKey", "bccsp/schemes/dlog/bridge/issuer.go: NewPublicKeyFromBytes", "bccsp/types/idemixerrs.go"]}
{"id": "C03", "title": "A validated issuer public key has a known, consistent secret", "statement": "If an issuer public key validates, then its proof is a valid proof of knowledge: two accepted proofs with the same first message and different challenges yield one scalar x with W = x*g2 and BarG2 = x*BarG1. Keys with BarG1 at infinity or with fewer attribute bases than attribute names never validate.", "quantifier": "all issuer public keys, all pairs of accepting transcripts", "why_tests_cant": "Soundness is a statement about all adversarial inputs; a test can only try some forged keys.", "anchors": ["bccsp/schemes/dlog/crypto/issuerkey.go: Check"]}
{"id": "C04", "title": "Credential requests are accepted for their own nonce and no other", "statement": "A credential request created for a user secret key, issuer key and nonce of the scalar length is always accepted by the issuer for that nonce. A request is never accepted when the expected nonce differs from the one it carries, or when it carries none.", "quantifier": "all secret keys, randomness, nonces", "why_tests_cant": "Tests use a few nonces; replay protection needs all pairs of nonces.", "anchors": ["bccsp/schemes/dlog/crypto/credrequest.go: newCredRequest, Check", "bccsp/schemes/dlog/bridge/credrequest.go: Sign, Verify"]}
{"id": "C05", "title": "Accepted credential requests prove knowledge of the user secret", "statement": "Two accepted requests with the same first message, same pseudonym and different challenges determine a scalar sk with Nym = sk*HSk. One request accepted under two different transcripts (nonce or issuer key) exhibits a collision of the hash-to-scalar function.", "quantifier": "all requests, including adversarial ones", "why_tests_cant": "Soundness quantifies over all adversarial requests.", "anchors": ["bccsp/schemes/dlog/crypto/credrequest.go: Check"]}
{"id": "C06", "title": "Issued credentials verify for the requesting user", "statement": "For any issuer key produced by key generation, any user secret, any nonce, any attribute vector of the right length and any randomness with isk+e nonzero, the credential issued on the user's request verifies under the user's secret key against the issuer's public key with exactly the issued attributes.", "quantifier": "all attribute vectors of any length, all keys and randomness", "why_tests_cant": "Algebraic correctness of the pairwise multi-exponentiation loops for every length and value is not testable by samples.", "anchors": ["bccsp/schemes/dlog/crypto/credential.go: newCredential, Ver", "bccsp/schemes/dlog/bridge/credential.go: Sign, Verify"]}
{"id": "C07", "title": "The issuer signs only valid requests with the right number of attributes", "statement": "Issuing a credential succeeds only if the credential request passes its proof check and the number of attributes equals the number of attribute names in the issuer key; attributes of an unsupported type are refused.", "quantifier": "all requests, attribute lists, issuer keys", "why_tests_cant": "Universal negative over all malformed requests.", "anchors": ["bccsp/schemes/dlog/crypto/credential.go: newCredential", "bccsp/schemes/dlog/bridge/credential.go: Sign"]}
{"id": "C08", "title": "Credential verification is exact", "statement": "Verifying a credential succeeds only if (A,e,s) satisfies the BBS+ equation on exactly the user's secret key and the credential's attributes, each of which must equal the attribute the caller supplied (unless hidden). The same credential cannot verify under two different user secret keys, nor can two different attribute vectors differing in one place verify with the same (A,e,s).", "quantifier": "all credentials, secret keys, attribute vectors", "why_tests_cant": "Universal over adversarial credentials.", "anchors": ["bccsp/schemes/dlog/crypto/credential.go: Ver", "bccsp/schemes/dlog/bridge/credential.go: Verify"]}
{"id": "C09", "title": "Honest signatures verify", "statement": "For every valid credential, every disclosure vector leaving the revocation handle hidden, every message, every randomness and each of the three signature types, the signature produced verifies under the matching verification type against the disclosed attribute values.", "quantifier": "all credentials, disclosure vectors, messages, randomness, signature types", "why_tests_cant": "Completeness over all disclosure subsets and randomness.", "anchors": ["bccsp/schemes/dlog/crypto/signature.go: NewSignature, prepare, finalise, Ver"]}
{"id": "C10", "title": "Signatures are proofs of knowledge of an issued credential", "statement": "Two accepted signatures with the same first messages and different challenges determine a valid BBS+ credential of the issuer, whose attributes at disclosed positions are exactly the values the verifier supplied, together with an opening of the pseudonym to the same user secret.", "quantifier": "all pairs of accepting transcripts, including adversarial ones", "why_tests_cant": "Knowledge soundness quantifies over every adversarial signature.", "anchors": ["bccsp/schemes/dlog/crypto/signature.go: Ver"]}
{"id": "C11", "title": "A signature binds message, disclosure, values and issuer", "statement": "If one and the same signature is accepted for two different messages, disclosure vectors of equal length, issuer key hashes, or disclosed values, then the two hash inputs are different and collide under hash-to-scalar (or an explicit linear relation between the issuer's bases is exhibited).", "quantifier": "all signatures and all pairs of verification inputs", "why_tests_cant": "Universal over all pairs of inputs.", "anchors": ["bccsp/schemes/dlog/crypto/signature.go: Ver (proofData layout)"]}
{"id": "C12", "title": "Signatures are perfectly anonymous", "statement": "For any two users holding credentials of the same issuer that agree on the disclosed attributes, and any pseudonym each of them can open, there is a bijection between their signing randomness under which they produce the identical signature; hence a signature carries no information about which user made it or about hidden attributes.", "quantifier": "all pairs of users/credentials/attribute vectors, all randomness", "why_tests_cant": "Privacy is a statement about distributions over all randomness; no finite number of runs can show it.", "anchors": ["bccsp/schemes/dlog/crypto/signature.go: prepare, finalise"]}
{"id": "C13", "title": "Verification types enforce the presence of pseudonym commitments", "statement": "With ExpectEidNym a signature without an enrolment-id commitment is rejected; with ExpectEidNymRhNym both commitments are required; with ExpectStandard a signature carrying either is rejected; in these modes (and in best-effort mode whenever a commitment is present) acceptance implies that the corresponding proof was checked.", "quantifier": "all signatures, all verification types", "why_tests_cant": "Decision logic over all combinations with adversarial signatures.", "anchors": ["bccsp/schemes/dlog/crypto/signature.go: Ver", "bccsp/schemes/aries/signer.go: Verify"]}
{"id": "C14", "title": "Enrolment-id and revocation-handle commitments are bound to the credential", "statement": "In an accepted signature with an enrolment-id (revocation-handle) commitment, the committed value is the value of the attribute at the verifier's index in the very credential proved (via extraction), provided that attribute is hidden.", "quantifier": "all accepted signature pairs", "why_tests_cant": "Universal over adversarial signatures.", "anchors": ["bccsp/schemes/dlog/crypto/signature.go: Ver"]}
{"id": "C15", "title": "Auditing a pseudonym commitment is exact and binding", "statement": "Auditing succeeds iff the commitment equals the one formed from the claimed enrolment id / revocation handle and randomness; a commitment cannot be opened to two different attribute values without exhibiting a linear relation between the bases; out-of-range attribute indices are errors.", "quantifier": "all commitments, ids, randomness, indices", "why_tests_cant": "Universal over openings.", "anchors": ["bccsp/schemes/dlog/crypto/signature.go: AuditNymEid, AuditNymRh", "bccsp/schemes/dlog/crypto/nymeid.go", "bccsp/schemes/dlog/crypto/nymrh.go"]}
{"id": "C16", "title": "Audit metadata returned by Sign is consistent with the signature", "statement": "The metadata returned with an EidNym/EidNymRhNym signature opens the commitments in that signature and passes the verifier's metadata check and the audit; metadata supplied to Sign whose attribute or commitment does not match is refused.", "quantifier": "all credentials, messages, randomness, supplied metadata", "why_tests_cant": "Universal over inputs.", "anchors": ["bccsp/schemes/dlog/crypto/signature.go: finalise, Ver"]}
{"id": "C17", "title": "Pseudonym signatures: complete, sound, message-binding", "statement": "A pseudonym signature made by the owner verifies for its message; two accepting transcripts with the same first message and different challenges give an opening (sk,r) of the pseudonym; the same signature accepted for two messages yields a hash collision.", "quantifier": "all keys, messages, randomness, adversarial signatures", "why_tests_cant": "Universal over inputs.", "anchors": ["bccsp/schemes/dlog/crypto/nymsignature.go"]}
{"id": "C18", "title": "Pseudonyms hide the user", "statement": "For any two user secrets and any pseudonym of the first there is exactly one randomness with which the second user derives the same pseudonym.", "quantifier": "all pairs of secret keys and randomness", "why_tests_cant": "Distributional statement over all randomness.", "anchors": ["bccsp/schemes/dlog/crypto/util.go: makeNym", "bccsp/schemes/dlog/bridge/user.go: MakeNym"]}
{"id": "C19", "title": "Verification honours the requested epoch and revocation key", "statement": "Verifying a signature for an epoch or revocation authority other than the one its revocation data belongs to should be refused.", "quantifier": "all signatures, epochs and revocation keys", "why_tests_cant": "Universal negative.", "anchors": ["bccsp/schemes/dlog/crypto/signature.go: Ver", "bccsp/schemes/aries/signer.go: Verify"]}
{"id": "C20", "title": "Revocation information is accepted only for the epoch and algorithm requested", "statement": "Credential revocation information signed by the authority verifies under its public key, and verification for epoch E and algorithm a succeeds only if the information carries epoch E and algorithm a.", "quantifier": "all epochs, algorithms, keys", "why_tests_cant": "Universal over epochs.", "anchors": ["bccsp/schemes/dlog/crypto/revocation_authority.go", "bccsp/schemes/dlog/bridge/revocation.go: Verify", "bccsp/schemes/aries/revocation.go: Verify"]}
{"id": "C21", "title": "Hash transcripts are exactly filled", "statement": "Every Fiat-Shamir transcript buffer built by signing and verification is filled exactly: no component is cut off, overwritten or left zero, no write goes out of range, and the transcript is the plain concatenation of its components.", "quantifier": "all message, disclosure and nonce lengths", "why_tests_cant": "All lengths.", "anchors": ["bccsp/schemes/dlog/crypto/signature.go: finalise, Ver", "bccsp/schemes/dlog/crypto/util.go: appendBytes*", "bccsp/schemes/dlog/crypto/credrequest.go", "bccsp/schemes/dlog/crypto/nymsignature.go"]}
{"id": "C22", "title": "Malformed input to the dlog bridge gives errors, never panics", "statement": "Whatever bytes, indices and options are supplied, the dlog bridge's sign/verify/audit/import functions return a result or an error and never let a run-time panic escape.", "quantifier": "all byte strings, indices, options", "why_tests_cant": "All adversarial byte strings.", "anchors": ["bccsp/schemes/dlog/bridge/*.go (recover handlers)"]}
{"id": "C23", "title": "Point serialisation round-trips and is canonical", "statement": "Encoding a group element to its wire form and decoding it returns the same element, for each translator; decoding should accept only the canonical wire form.", "quantifier": "all group elements, all wire forms", "why_tests_cant": "All group elements / wire forms.", "anchors": ["bccsp/schemes/dlog/crypto/translator/amcl/*.go"]}
{"id": "C24", "title": "BBS+ signatures verify", "statement": "For every key pair, message vector of any length and randomness (with key+e nonzero) the BBS+ signature verifies against the messages signed.", "quantifier": "all message vectors, keys, randomness", "why_tests_cant": "All lengths/values.", "anchors": ["bbs/bbs12381g2pub.go: SignWithKey, Verify", "bbs/signature.go: Verify"]}
{"id": "C25", "title": "BBS+ signatures bind the message vector", "statement": "If the same BBS+ signature verifies for two message vectors under one key, the difference exhibits a non-trivial linear relation between the public generators.", "quantifier": "all signatures and pairs of message vectors", "why_tests_cant": "Universal over adversarial messages.", "anchors": ["bbs/signature.go: Verify", "bbs/bbs12381g2pub.go: ComputeB"]}
{"id": "C26", "title": "Selective-disclosure proofs verify", "statement": "For every signed message vector, every non-empty set of revealed indices and every nonce, the derived proof verifies against the revealed messages.", "quantifier": "all vectors, index sets, nonces, randomness", "why_tests_cant": "All subsets.", "anchors": ["bbs/bbs12381g2pub.go: DeriveProofZr, VerifyProofFr", "bbs/proof_of_knowledge.go"]}
{"id": "C27", "title": "Selective-disclosure proofs are sound", "statement": "An accepted proof should be a proof of knowledge of a signature on a message vector agreeing with the revealed messages: two accepted proofs with equal first messages and different challenges yield such a signature.", "quantifier": "all adversarial proofs", "why_tests_cant": "Universal over adversarial proofs.", "anchors": ["bbs/signature_proof.go: Verify, ProofG1.Verify"]}
{"id": "C28", "title": "Revealed-index payload codec", "statement": "Encoding the number of messages and the set of revealed indices and parsing it back yields the same count and the sorted set of indices, for every count up to 65535 and every index set in range; larger counts and out-of-range indices are refused; parsing consumes exactly the encoded length and rejects shorter input.", "quantifier": "all counts and index sets, all byte strings", "why_tests_cant": "2^65536 index sets.", "anchors": ["bbs/utils.go: ParsePoKPayload, ToBytes, bitvectorToIndexes"]}
{"id": "C29", "title": "BBS wire codecs round-trip", "statement": "Parsing the serialisation of a BBS+ signature, of a proof of knowledge and of a signature proof returns the original, for any number of responses.", "quantifier": "all signatures/proofs", "why_tests_cant": "All values and response counts.", "anchors": ["bbs/signature.go: ParseSignature, ToBytes", "bbs/signature_proof.go: ToBytes, ParseSignatureProof, ParseProofG1"]}
{"id": "C30", "title": "Parsing untrusted proofs never panics", "statement": "Parsing arbitrary bytes as signature, payload, proof or signature proof returns a value or an error and never panics.", "quantifier": "all byte strings", "why_tests_cant": "All adversarial byte strings.", "anchors": ["bbs/signature_proof.go", "bbs/utils.go", "bbs/signature.go"]}
{"id": "C31", "title": "Generators are derived from pairwise distinct hash inputs", "statement": "For a public key and message count, the inputs hashed to derive the generators h0,h1,...,hn are pairwise distinct, all of equal length, and also distinct from those of any other message count or public key.", "quantifier": "all keys, counts, indices", "why_tests_cant": "All pairs of indices up to 2^32.", "anchors": ["bbs/keys.go: ToPublicKeyWithGenerators, calcData"]}
{"id": "C32", "title": "The generator cache is transparent under concurrency", "statement": "However concurrent callers interleave their look-ups and stores, every call returns exactly the generator the uncached derivation gives.", "quantifier": "all numbers of threads, all schedules, all histories", "why_tests_cant": "All interleavings.", "anchors": ["bbs/keys.go: generator cache"]}
{"id": "C33", "title": "Scalar derivation from key material is the 384-bit integer modulo the group order", "statement": "Deriving a scalar from 48 bytes of output key material equals the big-endian integer of those bytes reduced modulo the group order.", "quantifier": "all 48-byte strings", "why_tests_cant": "2^384 inputs.", "anchors": ["bbs/fr.go: FrFromOKM"]}
{"id": "C34", "title": "Seeded key generation", "statement": "Key generation with a seed is a function of the seed, refuses seeds of a wrong length and never silently yields a publicly known constant key.", "quantifier": "all seeds", "why_tests_cant": "All seeds.", "anchors": ["bbs/keys.go: GenerateKeyPair, generateOKM"]}
{"id": "C35", "title": "Multi-exponentiation equals the plain sum", "statement": "The batched multi-exponentiation returns the sum of base*scalar for every number of bases (odd or even), needs at least as many scalars as bases, and ignores surplus scalars.", "quantifier": "all lists", "why_tests_cant": "All lengths.", "anchors": ["bbs/bbs12381g2pub.go: sumOfG1Products"]}
{"id": "C36", "title": "Blind issuance completes", "statement": "For every user secret, nonce, attribute vector and randomness: the blinded request verifies for its nonce, the issuer's blind signature after unblinding is a credential that verifies for the user and the attributes.", "quantifier": "all secrets, attributes, randomness", "why_tests_cant": "All values.", "anchors": ["bccsp/schemes/aries/credrequest.go", "bccsp/schemes/aries/blind_sign.go", "bccsp/schemes/aries/cred.go"]}
{"id": "C37", "title": "Blind credential requests are sound and bound to the nonce", "statement": "An accepted blind credential request should prove knowledge of the blinded secret: no one can produce an accepted request without knowing an opening. A request accepted for one nonce is not accepted for another, short of a hash collision.", "quantifier": "all adversarial requests and nonces", "why_tests_cant": "Universal over adversarial requests.", "anchors": ["bccsp/schemes/aries/blind_sign.go: VerifyBlinding", "bbs/signature_proof.go: ProofG1.Verify"]}
{"id": "C38", "title": "Aries credential verification is exact", "statement": "Verification of a credential succeeds only if the BBS+ signature is valid for the user secret at its position and the credential's attributes, and every supplied non-hidden attribute equals the credential's. Credentials issued by the library verify for whichever secret-key position is configured.", "quantifier": "all credentials and attribute lists", "why_tests_cant": "Universal.", "anchors": ["bccsp/schemes/aries/cred.go: Sign, Verify"]}
{"id": "C39", "title": "Aries signatures verify", "statement": "For every credential, disclosure, message, signature type and randomness the produced signature verifies under the matching verification type.", "quantifier": "all credentials, disclosures, messages, randomness", "why_tests_cant": "All values.", "anchors": ["bccsp/schemes/aries/signer.go: Sign, Verify"]}
{"id": "C40", "title": "Aries verification enforces the disclosed attributes", "statement": "A signature accepted for a list of disclosed attribute values should prove that the credential has those values at those positions.", "quantifier": "all adversarial signatures and attribute lists", "why_tests_cant": "Universal over adversarial signatures.", "anchors": ["bccsp/schemes/aries/signer.go: Verify"]}
{"id": "C41", "title": "Aries enrolment-id/revocation-handle commitments are bound to the verifier's attribute index", "statement": "In an accepted signature the commitment should be to the attribute at the index the verifier asked for.", "quantifier": "all adversarial signatures", "why_tests_cant": "Universal.", "anchors": ["bccsp/schemes/aries/signer.go: Verify"]}
{"id": "C42", "title": "Aries pseudonym signatures cannot be made without the pseudonym's secret and fix their message", "statement": "A pseudonym signature accepted for (Nym, message) should be a proof of knowledge of an opening of Nym. A signature accepted for one message is not accepted for another message under the same pseudonym, short of a hash collision.", "quantifier": "all adversarial signatures, pseudonyms and messages", "why_tests_cant": "Universal.", "anchors": ["bccsp/schemes/aries/nymsigner.go: Verify"]}
{"id": "C43", "title": "Smartcard signatures verify", "statement": "Signatures and pseudonym signatures produced by the software smartcard verify for all keys, nonces and messages, and two accepting smartcard pseudonym transcripts with different challenges open the pseudonym.", "quantifier": "all keys, nonces, messages", "why_tests_cant": "All values.", "anchors": ["bccsp/schemes/aries/smartcard.go", "bccsp/schemes/aries/signer.go"]}
{"id": "C44", "title": "Smartcard randomness is never reused", "statement": "Successive pseudonym derivations on one card use pairwise distinct PRF inputs, for the life of the card.", "quantifier": "all histories of card operations", "why_tests_cant": "A repeat would only show after tens of thousands of calls.", "anchors": ["bccsp/schemes/aries/smartcard.go: ctr"]}
{"id": "C45", "title": "Key import validates length and decodes exactly", "statement": "Importing a user secret key, pseudonym or pseudonym public key accepts exactly the documented lengths and returns the encoded values; bytes exported by the library import to the same key.", "quantifier": "all byte strings", "why_tests_cant": "All lengths.", "anchors": ["bccsp/schemes/aries/user.go", "bccsp/schemes/dlog/bridge/user.go", "bccsp/schemes/dlog/crypto/util.go: makeNymFromBytes"]}
{"id": "C46", "title": "Operations dispatch to the right algorithm", "statement": "Every provider operation is routed by the dynamic type of its key/options to the algorithm registered for it; nil and unregistered types are refused with an error; registering one wrapper never disturbs another.", "quantifier": "all keys, options, registration histories", "why_tests_cant": "All combinations and registration orders.", "anchors": ["bccsp/bccsp.go", "bccsp/impl.go"]}
{"id": "C47", "title": "Keys are stored exactly when not ephemeral", "statement": "Generate/derive/import stores the resulting key iff the options say it is not temporary, stores nothing on failure, and returns no key if storing fails.", "quantifier": "all options, key stores and histories", "why_tests_cant": "All histories.", "anchors": ["bccsp/impl.go: KeyGen, KeyDeriv, KeyImport"]}
{"id": "C48", "title": "The key store returns what was stored", "statement": "After any history of stores, looking up the identifier of a stored key returns the most recently stored key with that identifier, with the same secret, public part, identifier and exportability, unaffected by stores of other keys.", "quantifier": "all histories of stores", "why_tests_cant": "All histories.", "anchors": ["bccsp/keystore/kvsbased.go", "bccsp/keystore/kvs/filebased.go"]}
{"id": "C49", "title": "The file key store survives crashes", "statement": "If the process crashes at any point during a store, every previously stored key is still readable afterwards.", "quantifier": "all histories and crash points", "why_tests_cant": "All crash points.", "anchors": ["bccsp/keystore/kvs/filebased.go: Put"]}
{"id": "C50", "title": "Key identifiers map injectively to files inside the store directory", "statement": "Distinct key identifiers are stored under distinct names, and no identifier can name a file outside the store directory.", "quantifier": "all identifiers", "why_tests_cant": "All identifiers.", "anchors": ["bccsp/keystore/kvsbased.go", "bccsp/keystore/kvs/filebased.go"]}
{"id": "C51", "title": "Non-exportable secrets are never exported", "statement": "With the provider configured as non-exportable, no secret key object returned by generate, derive or import yields its bytes, also after any history of other operations; public keys always export.", "quantifier": "all histories, key kinds", "why_tests_cant": "All histories.", "anchors": ["bccsp/handlers/user.go", "bccsp/handlers/nym.go", "bccsp/handlers/issuer.go", "bccsp/handlers/revocation.go", "bccsp/bccsp.go"]}
{"id": "C52", "title": "Exported keys import to the same key", "statement": "The bytes exported from a key (secret or public) import, with the matching options, to an equal key.", "quantifier": "all keys", "why_tests_cant": "All keys.", "anchors": ["bccsp/handlers/nym.go", "bccsp/handlers/user.go", "bccsp/handlers/issuer.go"]}
{"id": "C53", "title": "Principal evaluation", "statement": "An identity satisfies a principal iff it is valid and meets the principal's meaning: role, OU, identity, anonymity, or all members of a non-empty combined principal nested to any depth, subject to the MSP version rules; evaluation never panics.", "quantifier": "all principals (unbounded nesting), identities, versions", "why_tests_cant": "Unbounded nesting.", "anchors": ["msp/idemixmsp.go: SatisfiesPrincipal"]}
{"id": "C54", "title": "Role bitmasks", "statement": "A role is contained in a mask built from a list of roles iff it is one of the list; the MSP role to credential role mapping is injective on the defined roles, and unknown roles get no more than membership.", "quantifier": "all lists of roles, all integers", "why_tests_cant": "All masks and lists.", "anchors": ["msp/roles.go"]}
{"id": "C55", "title": "Identity serialisation round-trips", "statement": "Deserialising a serialised identity in the same MSP gives the same pseudonym, OU, role and proof; identities naming another MSP are refused.", "quantifier": "all identities", "why_tests_cant": "All identities.", "anchors": ["msp/idemixmsp.go: Serialize, DeserializeIdentity"]}
{"id": "C56", "title": "A valid identity owns its pseudonym", "statement": "If an identity validates, the proof attached should be about that identity's own pseudonym, so that signatures under the pseudonym are attributable to a credential holder.", "quantifier": "all (adversarial) serialised identities", "why_tests_cant": "Universal over adversarial identities.", "anchors": ["msp/idemixmsp.go: Validate, verifyProof, DeserializeIdentityInternal", "bccsp/handlers/signer.go: Verify"]}
{"id": "C57", "title": "An MSP validates identities against its own issuer key", "statement": "Validate should accept only identities whose proof verifies under this MSP's issuer key.", "quantifier": "all pairs of MSPs and identities", "why_tests_cant": "Universal.", "anchors": ["msp/idemixmsp.go: Validate"]}
{"id": "C58", "title": "MSP set-up checks its configuration", "statement": "Set-up succeeds only for a config of the right type, a curve allowed for the scheme, a valid issuer key and revocation key and, if a signer is present, a credential valid for it; bad configurations are reported as errors, not panics, and a failed set-up leaves the MSP unusable rather than half-configured.", "quantifier": "all configurations, all prior states", "why_tests_cant": "All configurations.", "anchors": ["msp/idemixmsp.go: Setup"]}
{"id": "C59", "title": "Generated signer configs are accepted", "statement": "A signer configuration generated for any OU, enrolment id, revocation handle and role (member or admin) is accepted by MSP set-up with the same issuer material and yields that role and OU; the generator refuses empty OU or enrolment id and never overwrites an existing CA or user directory.", "quantifier": "all inputs and file-system states", "why_tests_cant": "All inputs.", "anchors": ["tools/idemixgen/idemixca/idemixca.go", "tools/idemixgen/main.go"]}
{"id": "C60", "title": "Weak Boneh-Boyen signatures", "statement": "A weak-BB signature verifies for the message signed (when sk+m is nonzero) and for no other message.", "quantifier": "all keys, messages", "why_tests_cant": "All values.", "anchors": ["bccsp/schemes/weak-bb/weak-bb.go"]}
{"id": "C61", "title": "Malformed input to the aries scheme gives errors, never panics", "statement": "Whatever bytes are presented as a signature, credential, credential request, pseudonym signature or revocation information to the aries scheme, the call returns, with an error if the bytes are not acceptable; in particular no serialised identity crashes an MSP.", "quantifier": "all byte strings, keys, attributes and indices", "why_tests_cant": "Universal over adversarial bytes.", "anchors": ["bccsp/schemes/aries/signer.go: Verify", "bccsp/schemes/aries/credrequest.go: BlindVerify", "bccsp/schemes/aries/cred.go: Verify", "msp/idemixmsp.go: Validate"]}
{"id": "C62", "title": "Key generation interrupted at any point", "statement": "If ca-keygen stops at any point (crash or failing write), each of its files is absent or holds a first part of its contents and nothing else has changed; a signerconfig run afterwards from that directory refuses or works with the complete issuer and revocation keys of that run; an incomplete authority is noticed by signerconfig, and key generation can be repeated.", "quantifier": "all file systems, flags, randomness and interruption points", "why_tests_cant": "Ranges over every crash point and every prior file system.", "anchors": ["tools/idemixgen/main.go: main", "tools/idemixgen/main.go: writeFile, checkDirectoryNotExists, readIssuerKey, readRevocationKey"]}
{"id": "C63", "title": "An aries signature fixes its message and the disclosed attributes", "statement": "One aries signature is not accepted for two different messages, nor for one message with two different sets of disclosed values, unless the hash-to-scalar function collides on explicitly given inputs, the challenge is zero, or the generators of the disclosed attributes satisfy an explicit linear relation.", "quantifier": "all byte strings as signatures, all issuer keys, messages, disclosed attributes, verification types", "why_tests_cant": "Universal over adversarial signatures and message pairs.", "anchors": ["bccsp/schemes/aries/signer.go: Verify, getChallengeHash", "bccsp/schemes/aries/smartcard.go"]}
{"id": "C64", "title": "Aries signatures do not reveal who made them", "statement": "For two users with credentials of one issuer that agree on the disclosed attributes and that can both open the pseudonym, the signatures they make on a message are equally distributed: a bijection of the random choices makes them produce identical signatures.", "quantifier": "all issuer keys, credentials, disclosure sets, messages, signature types and random choices", "why_tests_cant": "A statement about distributions over all random choices.", "anchors": ["bccsp/schemes/aries/signer.go: Sign", "bccsp/schemes/aries/smartcard.go"]}
{"id": "C65", "title": "BBS+ proofs hide the messages that are not revealed", "statement": "For two signatures under one public key on equally many messages that agree on the revealed ones, the derived proofs are equally distributed: a bijection of the random choices makes them identical.", "quantifier": "all public keys, signatures, messages, revealed sets, nonces and random choices", "why_tests_cant": "A statement about distributions over all random choices.", "anchors": ["bbs/bbs12381g2pub.go: DeriveProof, DeriveProofZr"]}
{"id": "C66", "title": "MSPs with the same configuration agree", "statement": "Two MSP objects, in one process or in two, that were set up for the same MSP (same name, issuer key, revocation key and curve, whatever their own signers and randomness) treat every serialized identity alike: both refuse it for the same reason or both read the same identity, and then they agree on whether it is valid, on every signature of its pseudonym, on its organizational units, on every principal, and on its serialized form.", "quantifier": "all configurations of an MSP, all signers and random choices of the peers, all byte strings offered as identities, all messages, signatures and principals", "why_tests_cant": "Agreement between peers has to hold for every byte string and every pair of set-ups.", "anchors": ["msp/idemixmsp.go: Setup, DeserializeIdentity, Validate, SatisfiesPrincipal, Verify, Serialize"]}
{"id": "C67", "title": "Peers recognise generated signers", "statement": "If an MSP is set up with material that the generator made, its default signer can be serialized; every other MSP object set up for the same MSP reads it, finds the unit and the role of the generated configuration, validates it, and accepts every signature the signer makes.", "quantifier": "all units, enrolment ids, revocation handles, roles, MSP names, both schemes, all messages, and all random choices except a negligible fraction named in the theorem", "why_tests_cant": "End-to-end statement over all generated material, peers and messages.", "anchors": ["tools/idemixgen/idemixca/idemixca.go", "tools/idemixgen/idemixca/iedmixca_aries.go", "msp/idemixmsp.go: Setup, GetDefaultSigningIdentity, Serialize, DeserializeIdentity, Validate, Sign, Verify"]}
{"id": "C68", "title": "The provider carries a credential through its whole life", "statement": "An issuer, a user, a revocation authority and a verifier, each with a crypto provider and key store of their own, exchange only the byte strings that the provider exports: public keys, the credential request, the credential, revocation information and signatures. If all follow the protocol with the same agreed attribute names and attributes, every call of KeyGen, KeyImport, KeyDeriv, Sign and Verify succeeds: the request and the credential are accepted, the verifier accepts the signature with and without the openings that signing returned, every audit with these openings succeeds, and the pseudonym signature is accepted.", "quantifier": "both credential systems, all attribute names and values, all sets of disclosed attributes, all three signature types and the verification types that fit them, all epochs and messages, all key stores and their contents, and all random choices except a negligible fraction named in the theorem", "why_tests_cant": "The whole protocol has to complete for every choice of attributes, disclosure, randomness and store; tests run a few.", "anchors": ["bccsp/impl.go: CSP.KeyGen, KeyDeriv, KeyImport, Sign, Verify", "bccsp/bccsp.go: New, NewAries", "bccsp/handlers/*.go", "bccsp/schemes/dlog/bridge/*.go", "bccsp/schemes/aries/*.go"]}
{"id": "C69", "title": "A proof of one kind does not serve as a proof of another kind", "statement": "The proofs in issuer keys, in credential requests, in pseudonym signatures and in signatures with none, one or two committed attributes are kept apart: two accepted objects of different kinds never have their challenges computed from the same hash inputs, so that equal challenges exhibit a hash collision.", "quantifier": "all pairs of accepted objects of different kinds, both credential systems, all keys, messages, nonces and encodings of points that cannot be confused with letters of the labels", "why_tests_cant": "Universal over adversarial objects; that byte strings of two layouts never coincide is not visible from examples.", "anchors": ["bccsp/schemes/dlog/crypto/signature.go: signLabel, signWithEidNymLabel, signWithEidNymRhNymLabel, Ver", "bccsp/schemes/dlog/crypto/nymsignature.go: NewNymSignature, Ver", "bccsp/schemes/dlog/crypto/credrequest.go: credRequestLabel, Check", "bccsp/schemes/dlog/crypto/issuerkey.go: Check", "bccsp/schemes/aries/signer.go: verify", "bccsp/schemes/aries/nymsigner.go: nymSigLabel", "bccsp/schemes/aries/blind_sign.go: VerifyBlinding"]}
{"id": "C70", "title": "Calls of the key store that run at the same time do not disturb each other", "statement": "When several StoreKey and GetKey calls run at the same time on one store directory, from goroutines or processes, a GetKey returns a key that is or was being stored under the identifier and never another one; keys with other identifiers are not affected; a key that is in the store is found at every moment; and once all stores have returned without error the store holds one of the stored keys under each identifier.", "quantifier": "all keys, all numbers of calls, all interleavings of their system calls with reads and writes of any size, all failures and crashes", "why_tests_cant": "All schedules; the windows between opening and writing a file are too short to be hit by tests.", "anchors": ["bccsp/keystore/kvsbased.go: KVSStore.GetKey, StoreKey", "bccsp/keystore/kvs/filebased.go: Put, Get"]}
{"id": "C71", "title": "Credential requests do not give away who asks", "statement": "A credential request tells the issuer, and anyone who reads it, nothing about the user's secret key: for any two secrets, and for any two ways of spreading users over a series of requests, the requests have the same distribution.", "quantifier": "all issuer keys, secrets, nonces, series of requests and random choices", "why_tests_cant": "A statement about the distribution over all random choices; tests see single requests.", "anchors": ["bccsp/schemes/aries/credrequest.go: CredRequest.Blind", "bccsp/schemes/aries/blind_sign.go: BlindMessagesZr", "bccsp/schemes/dlog/crypto/credrequest.go: newCredRequest"]}
{"id": "C72", "title": "Pseudonyms and pseudonym signatures do not give away who is behind them", "statement": "A series of pseudonyms together with any number of signatures made with each has the same distribution whatever users' secrets are behind them: they do not tell who signed, nor whether two pseudonyms belong to one user.", "quantifier": "all issuer keys with a non-zero blinding generator, users, numbers of pseudonyms and signatures, messages and random choices", "why_tests_cant": "A statement about the joint distribution over all random choices and histories.", "anchors": ["bccsp/schemes/dlog/crypto/nymsignature.go: newNymSignature", "bccsp/schemes/dlog/crypto/util.go: makeNym", "bccsp/schemes/aries/nymsigner.go: NymSigner.Sign", "bccsp/schemes/aries/user.go: User.MakeNym"]}
{"id": "C73", "title": "Identities that validate rest on credentials of the issuer", "statement": "If an MSP validates an identity of its own, then whoever made the identity has a credential of the MSP's issuer on exactly the organizational unit and role that the identity shows: from two identities with the same first messages and different challenges such a credential, with the user's secret, can be computed.", "quantifier": "all MSPs, issuer keys, identities, units, roles and oracles", "why_tests_cant": "Knowledge soundness speaks about every prover, also dishonest ones; tests only run the honest signer.", "anchors": ["msp/idemixmsp.go: Idemixmsp.Validate", "msp/idemixmsp.go: Idemixidentity.verifyProof", "bccsp/schemes/dlog/crypto/signature.go: Signature.Ver", "bccsp/schemes/aries/signer.go: Signer.Verify"]}
{"id": "C74", "title": "Operations leave what they are given unchanged, whatever is shared", "statement": "A BBS+ operation changes no object that existed before the call, whether it was passed in, is a constant of the curve or is held in the cache of generators, and its outcome depends only on the values of its arguments, also if they are one and the same object. So calls can be repeated on the same objects with the same outcomes.", "quantifier": "all memories, arguments, aliasings, caches, series of calls and random choices", "why_tests_cant": "The arithmetic works in place on pointers; whether some shared object is changed depends on every aliasing of arguments and on the state of the cache.", "anchors": ["bbs/bbs12381g2pub.go: SignWithKeyFr, SignWithKeyB, Verify, DeriveProofZr, VerifyProof", "bbs/keys.go: ToPublicKeyWithGenerators, publicKeyGeneratorCache", "bbs/signature_proof.go: GetBytesForChallenge, Verify", "bbs/signature.go: Verify"]}
{"id": "C75", "title": "Concurrent operations that share objects do not interfere", "statement": "Goroutines that sign, verify and derive proofs at the same time, sharing keys, messages, curve constants and one cache of generators, each get the outcome they would have got alone; no goroutine ever writes an object that another is about to access; and none waits for another.", "quantifier": "all numbers of goroutines, calls, memories and schedules", "why_tests_cant": "Ranges over all interleavings of memory accesses.", "anchors": ["bbs/bbs12381g2pub.go: BBSG2Pub", "bbs/keys.go: publicKeyGeneratorCache.get", "bbs/bbs12381g2pub.go: DeriveProofZr"]}
{"id": "C76", "title": "What an MSP publishes does not give its member away", "statement": "Members of one organizational unit with one role, whose signer configurations come from the generator, set up MSPs, send their serialized identities and sign messages, in any number of sessions. What the sessions publish has the same distribution whichever member is behind which session; in particular it does not tell whether two sessions are of one member.", "quantifier": "all platforms and curves, issuer and signer randomness, numbers of members, sessions and messages, assignments of members to sessions", "why_tests_cant": "A statement about the distribution of all outputs over all random choices, and about everything the outputs contain.", "anchors": ["msp/idemixmsp.go: Setup, GetDefaultSigningIdentity, Serialize, Sign", "tools/idemixgen/idemixca/idemixca.go: GenerateSignerConfig", "tools/idemixgen/idemixca/iedmixca_aries.go: GenerateSignerConfigAries", "bccsp/schemes/dlog/crypto/signature.go: finalise", "bccsp/schemes/aries/signer.go: packageProof", "bccsp/schemes/dlog/crypto/revocation_authority.go: CreateCRI"]}
{"id": "C77", "title": "The key store can be asked for a key whatever its files contain", "statement": "Whatever the files of the store directory contain (files that were copied, renamed, edited or damaged), GetKey returns an error or a key whose identifier is the one asked for; it does not panic.", "quantifier": "all contents of the directory, all identifiers, all histories of stores with failures and crashes", "why_tests_cant": "All byte strings as file contents; a test can only try some.", "anchors": ["bccsp/keystore/kvsbased.go: KVSStore.GetKey", "bccsp/keystore/kvs/filebased.go: Get", "bccsp/schemes/dlog/crypto/translator/amcl/gurvy.go: G1FromProto"]}
{"id": "C78", "title": "dlog operations leave what they are given unchanged, whatever is shared", "statement": "An operation of the dlog scheme (key import, pseudonyms, requests, credentials, signatures, their verification and audits, weak-BB signatures) changes no object that existed before the call, and its outcome depends only on the values of its arguments, also if secret keys, attributes, openings, pseudonyms, metadata and curve constants are one and the same object.", "quantifier": "all memories, arguments, aliasings, series of calls and random choices", "why_tests_cant": "The arithmetic works in place on pointers; whether some shared object is changed depends on every aliasing of arguments.", "anchors": ["bccsp/schemes/dlog/crypto/signature.go: NewSignature, Ver, AuditNymEid, AuditNymRh", "bccsp/schemes/dlog/crypto/credential.go: NewCredential, Ver", "bccsp/schemes/dlog/crypto/credrequest.go: NewCredRequest, Check", "bccsp/schemes/dlog/crypto/nymsignature.go: NewNymSignature, Ver", "bccsp/schemes/dlog/crypto/issuerkey.go: Check, SetHash", "bccsp/schemes/weak-bb/weak-bb.go"]}
{"id": "C79", "title": "Concurrent dlog operations that share objects do not interfere", "statement": "Goroutines that make calls of the dlog scheme at the same time, sharing issuer public keys, secret keys, pseudonyms, attributes and curve constants, each get the outcome they would have got alone; no goroutine ever writes an object that another is about to access; and none waits for another.", "quantifier": "all numbers of goroutines, calls, memories and schedules", "why_tests_cant": "Ranges over all interleavings of memory accesses.", "anchors": ["bccsp/schemes/dlog/crypto/issuerkey.go: Check, SetHash", "bccsp/schemes/dlog/crypto/credrequest.go: NewCredRequest", "bccsp/schemes/dlog/crypto/signature.go: NewSignature, Ver", "bccsp/schemes/dlog/bridge/issuer.go: NewPublicKeyFromBytes"]}
{"id": "C80", "title": "Key files may be rewritten by any JSON tool", "statement": "A key file is JSON (RFC 8259). A file whose JSON value describes a key gives that key, whatever the white space, the order of members, the escapes in strings, the case of names and the unknown members; files with the same value are the same to the store; a file that is not JSON is refused; every part of a key that a look-up returns is in its file; and what StoreKey writes is JSON that describes the key.", "quantifier": "all byte strings as file contents, all keys, identifiers and directories", "why_tests_cant": "There are infinitely many spellings of a value, and infinitely many texts that are not JSON.", "anchors": ["bccsp/keystore/kvsbased.go: entry, KVSStore.GetKey, KVSStore.StoreKey", "bccsp/keystore/kvs/filebased.go: Get, Put"]}
{"id": "C81", "title": "A configuration directory is usable after an interrupted signerconfig", "statement": "If idemixgen signerconfig is interrupted at any point, by a crash or an error, then an MSP that is set up from the directory afterwards either refuses, or works as a verifier without a signer, or has the signer that was asked for: with its enrolment id, unit and role, whose identity the MSP accepts and whose signatures it accepts. Repeating the command is refused or starts from the unchanged directory. A directory without the file of a signer makes an MSP that verifies.", "quantifier": "all flags, directories, interruption points down to single bytes of the file, MSPs and randomness", "why_tests_cant": "The file of the signer can be cut after any byte, and each cut is a different message; tests use complete directories.", "anchors": ["tools/idemixgen/main.go: signerconfig, writeFile", "msp/idemixmsp.go: GetIdemixMspConfigWithType", "msp/idemixmsp.go: Setup", "tools/idemixgen/idemixca/idemixca.go: GenerateSignerConfig, GenerateSignerConfigAries"]}
{"id": "C82", "title": "Blind signatures on messages of which any are hidden", "statement": "A user who blinds any set of messages, and a signer who knows the others, get a signature on all the messages: the request is accepted for exactly the positions that are hidden, survives being encoded, and the signature on the known messages and the request, unblinded, verifies for all messages under the signer's public key. The request says nothing about the hidden messages, and an accepted request shows that its maker knows them. A request that does not fit the positions the signer expects is refused.", "quantifier": "all keys, vectors of messages or scalars of any length, sets of hidden positions, orders of the known messages, nonces and randomness; all requests", "why_tests_cant": "The tests hide one or two fixed messages; every set of positions uses other generators, and hiding and soundness are about distributions and about requests the library does not make.", "anchors": ["bccsp/schemes/aries/blind_sign.go: BlindMessages, BlindMessagesZr, VerifyBlinding, BlindSign, UnblindSign, BlindedMessages.Bytes, ParseBlindedMessages"]}
{"id": "C83", "title": "What MSPs and identities report about themselves", "statement": "After a successful set-up an MSP reports the name and the type of its configuration and the version it was made with; its default signing identity is the signer of that configuration, or there is none if the configuration has none. Every identity that the MSP makes, its default signer and those it deserializes, reports this MSP's name both directly and in its identifier, an identifier made of the bytes of its pseudonym, and exactly one organizational unit, which is the one it claims, certified by the issuer key of the MSP.", "quantifier": "all MSP objects, configurations, sequences of two set-ups, serialized identities and randomness", "why_tests_cant": "Tests look at two fixed configurations and set each MSP up once.", "anchors": ["msp/idemixmsp.go: GetType, GetVersion, GetIdentifier, GetDefaultSigningIdentity, Setup, newIdemixIdentity, GetMSPIdentifier, GetOrganizationalUnits, DeserializeIdentity"]}
{"id": "C84", "title": "Signers have what their credentials certify", "statement": "An MSP that has accepted a signer configuration, whoever wrote it, has a signer whose secret the issuer has certified together with the organizational unit, the role and the enrolment id that the MSP then shows for it. Every signer configuration that the generating functions make, for whatever role mask they take, is one that MSPs accept.", "quantifier": "all MSPs of both schemes, configurations, signer configurations, role masks and randomness", "why_tests_cant": "The configuration is untrusted input of unlimited shape; tests use the two masks of the command line.", "anchors": ["msp/idemixmsp.go: Setup", "msp/roles.go", "bccsp/schemes/dlog/bridge/credential.go: Verify", "bccsp/schemes/aries/cred.go: Verify", "tools/idemixgen/idemixca/idemixca.go: GenerateSignerConfig", "tools/idemixgen/idemixca/iedmixca_aries.go: GenerateSignerConfigAries"]}
{"id": "C85", "title": "aries operations leave what they are given unchanged, except that a card counts", "statement": "An operation of the aries scheme (key import, pseudonyms, blinding and unblinding, issuing, signatures of all types, verification, audits, card signatures) changes no object that existed before the call, and its outcome depends only on the values of its arguments, also if keys, secrets, pseudonyms, openings, generators and curve constants are one and the same object. Asking a smartcard for a commitment to its enrollment id increases the counter of the card by one and changes nothing else.", "quantifier": "all memories, arguments, aliasings, series of calls and random choices", "why_tests_cant": "The arithmetic works in place on pointers; whether some shared object is changed depends on every aliasing of arguments.", "anchors": ["bccsp/schemes/aries/signer.go: Sign, Verify, AuditNymEid, AuditNymRh", "bccsp/schemes/aries/cred.go: Sign, Verify", "bccsp/schemes/aries/credrequest.go: Blind, BlindVerify, Unblind", "bccsp/schemes/aries/issuer.go", "bccsp/schemes/aries/user.go: MakeNym", "bccsp/schemes/aries/nymsigner.go: Sign, Verify", "bccsp/schemes/aries/smartcard.go: NymEid, NymSign, NymVerify", "bccsp/schemes/aries/blind_sign.go: BlindMessages, BlindSign, UnblindSign"]}
{"id": "C86", "title": "Concurrent aries operations that share objects do not interfere", "statement": "Goroutines that make calls of the aries scheme at the same time, sharing issuer keys, secret keys, pseudonyms, cards and curve constants, each get the outcome they would have got alone; two commitments asked of one card have different randomness as they do one after the other; no goroutine ever writes an object that another is about to access; and none waits for another.", "quantifier": "all numbers of goroutines, calls, memories and schedules", "why_tests_cant": "Ranges over all interleavings of memory accesses.", "anchors": ["bccsp/schemes/aries/smartcard.go: NymEid, getNymEid", "bccsp/schemes/aries/signer.go: Sign, Verify", "bccsp/schemes/aries/cred.go: Sign, Verify", "bccsp/schemes/aries/credrequest.go: Blind, BlindVerify"]}
{"id": "C87", "title": "Credentials cannot be forged without solving the strong Diffie–Hellman problem", "statement": "Whoever gets credentials from an issuer of the dlog scheme, choosing every request and its attributes after having seen the credentials so far, and then shows a credential that verifies for a secret key and attributes that were never issued (or two signatures that give one away), can be turned, by an explicit algorithm that does not have the issuer's secret key x, into a solution of the strong Diffie–Hellman problem: from y, x·y, x²·y, … and x·g2 it computes some c and the point y/(x+c). The algorithm plays the issuer: the public key and the credentials it shows are those that the issuer would have made.", "quantifier": "all forgers, numbers of credentials, attribute names, random choices of the issuer and curves; the algorithm fails for at most one in |F| of its hidden choices", "why_tests_cant": "Ranges over all adaptive forgers; what is claimed is the existence of an algorithm and how often it fails.", "anchors": ["bccsp/schemes/dlog/crypto/issuerkey.go: NewIssuerKey", "bccsp/schemes/dlog/crypto/credential.go: NewCredential, Ver", "bccsp/schemes/dlog/crypto/signature.go: Ver"]}
{"id": "C88", "title": "An issuer of the aries scheme certifies only the attributes that it signs", "statement": "Whoever gets credentials from an issuer of the aries scheme for attributes that the issuer has approved holds credentials (and can make identities that MSPs accept) for these attributes only: a credential for other attributes, or another secret key, can be had only by solving the strong Diffie–Hellman problem. In particular a member of one organisational unit cannot become an administrator, or a member of another unit, by the way the request is made.", "quantifier": "all requests that the issuer accepts, all attributes asked for and all others, keys, random choices and curves; for the positive part all adaptive forgers whose requests have known openings", "why_tests_cant": "Ranges over all requests a user can send, including those no program of this library makes, and over all forgers.", "anchors": ["bccsp/schemes/aries/cred.go: Sign, Verify", "bccsp/schemes/aries/credrequest.go: Blind, BlindVerify, Unblind", "bccsp/schemes/aries/blind_sign.go", "tools/idemixgen/idemixca/iedmixca_aries.go: GenerateSignerConfigAries", "msp/idemixmsp.go: Setup, Validate"]}
{"id": "C89", "title": "Signatures for given attributes are made only by holders of credentials with these attributes", "statement": "A verifier has settled which attributes, with which values and which commitments, it asks for. Whoever makes signatures that it accepts (for messages of their choice), with any number of questions to the hash function and not only with negligible success, has a credential of the issuer with these attribute values and an opening of the pseudonym of the signature to the secret of that credential: both are computed from two runs of the signer. Likewise whoever makes signatures for a pseudonym has an opening of it. So people who got credentials from the issuer, none of which has the values asked for, cannot make such signatures unless the strong Diffie-Hellman problem is easy.", "quantifier": "all signers that ask the hash function adaptively any number q of questions, all answers of the hash function, issuer keys (also ones not made by the library), policies that name the type of commitments, messages, curves; for the last part all adaptive histories of credential requests", "why_tests_cant": "Ranges over all adversarial programs and counts over all answers of the hash function; tests run a few honest signers against one hash function.", "anchors": ["bccsp/schemes/dlog/crypto/signature.go: Signature.Ver", "bccsp/schemes/dlog/crypto/nymsignature.go: NymSignature.Ver", "bccsp/schemes/dlog/crypto/credential.go: NewCredential"]}
{"id": "C90", "title": "Holders of credentials disclose only the values in them", "statement": "A holder of credentials cannot make a signature that is accepted as disclosing a value that none of the credentials has, even if they may choose the value freely, and as late as they like.", "quantifier": "all credentials, disclosure vectors, messages, random choices and types of signatures; all signers that ask the hash function adaptively and choose the values at the end", "why_tests_cant": "Ranges over all programs of dishonest holders and all answers of the hash function; the code that tests exercise is that of honest holders.", "anchors": ["bccsp/schemes/dlog/crypto/signature.go: finalise, Signature.Ver (proofData)"]}
{"id": "C91", "title": "Only the owner of a pseudonym signs for it, whatever signatures others have seen", "statement": "Somebody who does not know the user secret behind a pseudonym, but gets the owner's signatures on messages of their choice, one after another and as many as they like, cannot make a signature of that pseudonym on another message (dlog scheme; for the aries scheme this is false already without any signature, see C42). Whoever does is turned, by an explicit algorithm, into a computation of the discrete logarithm of one generator of the issuer's public key to the base of another.", "quantifier": "all adaptive attackers, numbers of signatures and hash questions, issuer keys, choices of the owner (user secret, randomness of the pseudonym and of each signature) and curves; success is counted over all choices of the owner and all answers of the hash function", "why_tests_cant": "Ranges over all programs an attacker may run and all messages they may choose; the claim is a bound on how often any of them succeeds.", "anchors": ["bccsp/schemes/dlog/crypto/nymsignature.go: newNymSignature, Ver", "bccsp/schemes/dlog/crypto/util.go: makeNym", "bccsp/schemes/dlog/bridge/nymsignaturescheme.go: Sign, Verify"]}
{"id": "C92", "title": "An identity is well formed exactly if it can be deserialized", "statement": "IsWellFormed says of an identity whether it can be deserialized into its provider-specific form: it accepts what Serialize writes and what DeserializeIdentity reads, whatever MSP is asked, and refuses what no MSP can read.", "quantifier": "all serialized identities, MSPs (set up or not) and configurations", "why_tests_cant": "Ranges over all byte strings and all MSPs; the tests check one serialized identity and one cut short.", "anchors": ["msp/idemixmsp.go: IsWellFormed, DeserializeIdentityInternal, Serialize", "msp/provider.go: IdentityDeserializer"]}
{"id": "C93", "title": "Only the owner of a pseudonym signs for it, even if they also show their credential", "statement": "A user with a credential and several pseudonyms signs messages with the pseudonyms and shows the credential with them, on messages, with disclosures and types of signatures that somebody else chooses, one after another and as often as they like (dlog scheme). Even if the others know the group elements of the credential, they cannot make a signature of one of the pseudonyms on a message that the user has not signed with it. Whoever does is turned, by an explicit algorithm, into a computation of the discrete logarithm of one generator of the issuer's public key to the base of another.", "quantifier": "all adaptive attackers, numbers of pseudonyms, requests and hash questions, issuer keys, attributes, disclosures and curves with distinguishable labels; success is counted over all choices of the user (secret, pseudonyms, credential, each signature) and all answers of the hash function", "why_tests_cant": "Ranges over all programs an attacker may run and all sequences of requests; the claim is a bound on how often any of them succeeds, and on what different kinds of signatures reveal together.", "anchors": ["bccsp/schemes/dlog/crypto/nymsignature.go: newNymSignature, Ver", "bccsp/schemes/dlog/crypto/signature.go: NewSignature, prepare, finalise", "bccsp/schemes/dlog/crypto/credential.go: NewCredential", "bccsp/schemes/dlog/crypto/util.go: makeNym"]}
{"id": "C94", "title": "Signatures do not show who made them, to those who choose what is signed", "statement": "Members of one issuer own pseudonyms, and sign messages and show their credentials with them as somebody else asks them to, one request after another (dlog scheme). As long as nothing is asked to be disclosed in which the two candidates for the ownership of a pseudonym differ, that somebody cannot tell which of two distributions of the pseudonyms among the members is the real one, even if they know all the secrets of all members and of the issuer, and choose each message, disclosure and type of signature after having seen the previous signatures.", "quantifier": "all groups of members with real credentials, distributions of pseudonyms, adaptive observers with any number of requests and hash questions, and properties of their conclusions; frequencies are counted over all choices of the members and all answers of the hash function", "why_tests_cant": "Ranges over all programs of observers and all random choices: equality of distributions, up to a bound of the order of one over the size of the field.", "anchors": ["bccsp/schemes/dlog/crypto/signature.go: NewSignature, prepare, finalise", "bccsp/schemes/dlog/crypto/nymsignature.go: newNymSignature", "bccsp/schemes/dlog/crypto/util.go: makeNym"]}
{"id": "C95", "title": "Messages with fields that this version does not declare mean the same", "statement": "Keys, requests, credentials, signatures, revocation information, configurations, serialized identities and principals are protobuf messages. Fields added to such a message, or to the messages in it, that this version does not declare (new numbers, or known numbers with another wire type, groups included) change neither whether it is accepted nor what it is taken to say, so that messages of later versions can be read.", "quantifier": "all messages, well formed or not, all places in them and in the messages they contain, and all sequences of undeclared fields", "why_tests_cant": "Ranges over all encodings of all messages; no test adds an undeclared field.", "anchors": ["bccsp/schemes/dlog/crypto/idemix.pb.go: IssuerPublicKey, Signature", "bccsp/schemes/dlog/crypto/issuerkey.go: SetHash, Check", "bccsp/schemes/dlog/crypto/revocation_authority.go: VerifyEpochPK", "bccsp/schemes/aries/revocation.go: Verify", "bccsp/schemes/aries/cred.go: Verify, Unblind", "msp/idemixmsp.go: Setup, DeserializeIdentity, SatisfiesPrincipal"]}
{"id": "C96", "title": "Signatures of the BBS+ library cannot be forged", "statement": "Whoever gets BBS+ signatures from a signer, for lists of messages of their choice, of any lengths and each chosen after having seen the previous signatures, cannot come up with a signature that Verify accepts for a list of messages that was not signed (another order, length or message), nor with another signature for the same messages and the same s, except by solving the strong Diffie–Hellman problem or by finding a message whose hash is that of another one or zero.", "quantifier": "all adaptive forgers, numbers of signatures, lengths of messages and lists, keys, random choices and curves; the reduction to the problem is an explicit program, and the fraction of its choices for which it does not succeed is bounded", "why_tests_cant": "Ranges over all programs of forgers.", "anchors": ["bbs/bbs12381g2pub.go: Sign, Verify, SignWithKeyFr, SignWithKeyB", "bbs/keys.go: ToPublicKeyWithGenerators", "bbs/signature.go: Verify", "bbs/fr.go: FrFromOKM"]}
{"id": "C97", "title": "Whoever makes an accepted issuer key or credential request knows its secret", "statement": "If an issuer public key passes Check, or a credential request passes the check of the issuer, often enough over the answers of the hash function, then its maker knows the secret: the issuer secret key that belongs to the public key, or the user secret key that is committed to in the request. The secret is computed by playing the maker twice. In particular nobody publishes the key of another issuer, nor asks for a credential for the secret of another user, unless they know it.", "quantifier": "all programs that make issuer keys or requests and ask the hash function any number of questions, all answers, attribute names, nonces and curves", "why_tests_cant": "Ranges over all programs of adversaries and all hash functions.", "anchors": ["bccsp/schemes/dlog/crypto/issuerkey.go: NewIssuerKey, Check", "bccsp/schemes/dlog/crypto/credrequest.go: NewCredRequest, Check"]}
{"id": "C98", "title": "Whoever makes BBS+ proofs that are accepted has a signature on the disclosed messages", "statement": "If VerifyProof accepts the proofs of somebody often enough over the answers of the hash function, then they have a BBS+ signature of the holder of the public key on a list of messages that has the disclosed messages at the disclosed positions. Without such a signature having been issued, they solve the strong Diffie–Hellman problem.", "quantifier": "all programs that make proofs, that get signatures for lists of their choice before and ask the hash function any number of questions, all answers, keys, nonces, numbers of messages and positions, and curves", "why_tests_cant": "Ranges over all programs of adversaries and all hash functions.", "anchors": ["bbs/bbs12381g2pub.go: VerifyProof, VerifyProofFr, DeriveProof", "bbs/signature_proof.go: Verify, GetBytesForChallenge", "bbs/proof_of_knowledge.go: NewPoKOfSignature, GenerateProof, ToBytes"]}
{"id": "C99", "title": "Whoever makes accepted aries requests or pseudonym signatures, or card signatures, knows the secret", "statement": "If credential requests pass the check of an aries issuer, or pseudonym signatures or smartcard signatures are accepted, often enough over the answers of the hash function, then their maker knows the secret: the user secret and the blinding that the request commits to, or the secret and the randomness of the pseudonym in whose name the signature is. They are computed by playing the maker twice.", "quantifier": "all programs that make requests or signatures, for pseudonyms and messages of their choice, and ask the hash function any number of questions, all answers, keys, nonces and curves", "why_tests_cant": "Ranges over all programs of adversaries and all hash functions.", "anchors": ["bccsp/schemes/aries/credrequest.go: BlindVerify", "bccsp/schemes/aries/blind_sign.go: VerifyBlinding, VerifyProof", "bccsp/schemes/aries/nymsigner.go: Verify", "bccsp/schemes/aries/smartcard.go: NymVerify"]}
{"id": "C100", "title": "Whoever makes accepted aries signatures has a credential with the attributes shown", "statement": "If signatures of the aries scheme are accepted, for an issuer key and attributes that a verifier asks for, often enough over the answers of the hash function, then their maker has a credential of that issuer with these attributes and an opening of the pseudonym to its user secret: both are computed by playing the maker twice. If the issuer gave them no credential with these attributes, whoever makes such signatures solves the strong Diffie-Hellman problem.", "quantifier": "all programs that ask for credentials, make signatures for messages and pseudonyms of their choice, and ask the hash function any number of questions, all answers, issuer keys, attributes, positions of the secret and curves", "why_tests_cant": "Ranges over all programs of adversaries and all hash functions.", "anchors": ["bccsp/schemes/aries/signer.go: Signer.Verify", "bccsp/schemes/aries/util.go: attributesToSignatureMessage", "bccsp/schemes/aries/cred.go: Cred.Sign"]}
{"id": "C101", "title": "Malformed messages are rejected, at every depth", "statement": "An operation that receives an issuer key, credential request, credential, revocation information, signature, pseudonym signature, MSP configuration, serialized identity or principal as bytes succeeds only if they are a sequence of protobuf fields, complete and with numbers of at most ten bytes and 64 bits, if their string fields are valid UTF-8, and if the same holds of every message in them that the schema declares. Issuer public keys, credential requests, credentials, signatures, pseudonym signatures, revocation information and the messages of the MSP are understood exactly if they have this form.", "quantifier": "all byte strings (below 2^64 bytes), all other arguments, both schemes, all MSPs", "why_tests_cant": "Ranges over all byte strings, at all depths of nesting.", "anchors": ["bccsp/schemes/dlog/crypto/idemix.proto", "bccsp/schemes/aries/cred.proto", "msp/config/msp_config.proto", "msp/config/identities.proto", "bccsp/schemes/dlog/bridge/signaturescheme.go: Verify", "bccsp/schemes/aries/signer.go: Verify", "msp/idemixmsp.go: DeserializeIdentity, SatisfiesPrincipal, Setup"]}
{"id": "C102", "title": "The configuration of a directory says what is in the directory", "statement": "GetIdemixMspConfigWithType succeeds exactly if the type is not negative, the name is a valid string, both public keys can be read, and the signer's file either cannot be read or is well-formed. The configuration then has the requested type and says the given name, exactly these keys and this signer (none if its file cannot be read); an MSP set up from it succeeds exactly if the type is that of its scheme, the scheme accepts the keys on its default curve and the signer has a valid credential, and then has this name, these keys and this signer.", "quantifier": "all directories (outcomes of reading the files), names, types, MSPs and their states", "why_tests_cant": "Ranges over all contents of the files and all outcomes of reading them.", "anchors": ["msp/idemixmsp.go: GetIdemixMspConfigWithType, GetIdemixMspConfig, readFile, Setup"]}
{"id": "C103", "title": "An accepted signature cannot be altered", "statement": "From an accepted signature, pseudonym signature or smart card signature nobody can make another string that is accepted for the same key, message, attributes and pseudonym without making a new proof: two accepted signatures with the same challenge have the same content, or their hash inputs collide, or the differences of their answers are a relation between the generators (a discrete logarithm).", "quantifier": "all keys, pairs of signatures, messages, disclosures, values, verification types, and all strings", "why_tests_cant": "Ranges over all alterations of all accepted signatures.", "anchors": ["bccsp/schemes/dlog/crypto/signature.go: Ver", "bccsp/schemes/dlog/crypto/nymsignature.go: Ver", "bccsp/schemes/aries/nymsigner.go: Verify", "bccsp/schemes/aries/signer.go: Verify", "bccsp/schemes/aries/smartcard.go: NymVerify"]}
{"id": "C104", "title": "A signature counts for one message and one identity", "statement": "If membership service providers accept one signature for two messages and two of their identities, the messages are equal, the identities are the same in pseudonym, unit and role, and the providers have the same issuer key, unless the two hash inputs collide.", "quantifier": "all providers, identities, signatures, and pairs of messages", "why_tests_cant": "Ranges over all signatures and all pairs of messages and identities.", "anchors": ["msp/idemixmsp.go: Verify, Validate, verifyProof", "bccsp/schemes/dlog/crypto/nymsignature.go: Ver", "bccsp/schemes/aries/nymsigner.go: Verify"]}
{"id": "C105", "title": "What an audit of an accepted signature reports is true of its signer", "statement": "If a signature is accepted and an audit of it succeeds for an enrollment identifier or revocation handle, then this is the one in the credential with which the signature was made.", "quantifier": "all accepted signatures, verification types, audited values and openings", "why_tests_cant": "Ranges over all signatures an adversary can make or alter, and over all openings they can offer the auditor.", "anchors": ["bccsp/schemes/dlog/crypto/signature.go: Ver, AuditNymEid, AuditNymRh", "bccsp/schemes/aries/signer.go: Verify, AuditNymEid, AuditNymRh"]}
{"id": "C106", "title": "Signatures with one pseudonym are made with one secret", "statement": "If two accepted signatures carry the same pseudonym, or a pseudonym signature is accepted for the pseudonym in an accepted signature, then they were made with the same user secret, for which the signers have credentials with the attributes they disclose.", "quantifier": "all pairs of accepted signatures with one pseudonym, whatever their messages, disclosures and verification types", "why_tests_cant": "Ranges over all signers, who may make the two signatures in any way they like.", "anchors": ["bccsp/schemes/dlog/crypto/signature.go: Ver", "bccsp/schemes/dlog/crypto/nymsignature.go: Ver", "bccsp/schemes/aries/signer.go: Verify", "bccsp/schemes/aries/nymsigner.go: Verify"]}
{"id": "C107", "title": "Signatures with one commitment are of holders of one enrollment identifier", "statement": "If two accepted signatures carry the same commitment to an enrollment identifier (or revocation handle), then the credentials with which they were made have the same enrollment identifier (revocation handle).", "quantifier": "all pairs of accepted signatures with one commitment, whatever their messages, disclosures and pseudonyms", "why_tests_cant": "Ranges over all signers, who may make the two signatures in any way they like.", "anchors": ["bccsp/schemes/dlog/crypto/signature.go: Ver", "bccsp/schemes/aries/signer.go: Verify"]}
