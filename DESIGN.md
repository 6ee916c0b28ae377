# Formal model of IBM/idemix in Lean 4 — design

## 1. Approach

The model is a set of total (mostly computable) Lean functions written function by function after
the Go code in `/repo`. Every definition cites the file and lines it models. Go behaviour is represented as:

* **Outcomes.** `Res α = ok a | err msg | panic`. A Go run-time panic (nil dereference, index out of
  range, short slice, explicit `panic`) is the explicit outcome `panic`, never a default value. Where
  the Go code installs `recover`, the model maps `panic` to `err`.
* **nil.** Pointers that the code compares with nil, or that may be nil in an untrusted message, are `Option`s.
* **Slices / strings / bytes.** `List`, `Bytes = List UInt8`.
* **Randomness** is an explicit argument (one named field per drawn scalar), so "for all randomness" is a
  universal quantifier and distributional statements are bijections between tapes.
* **Curves.** `IBM/mathlib` is a dependency and is *not* modelled down to field arithmetic: it is a parameter
  `Suite` — a scalar field `F`, groups `G1 G2 GT` written additively as `F`-modules, a bilinear pairing,
  generators, byte encodings, `HashToZr`. The laws used (bilinearity, non-degeneracy, encodings injective and of
  fixed length, decode∘encode = id) are fields of that structure, i.e. hypotheses that each use of a theorem
  must supply, not axioms. A concrete instance (`Verif/Toy.lean`) shows that the laws are satisfiable, and
  the non-vacuity examples run the model on it.
* **Hash functions** are arbitrary functions. Binding properties that hold cryptographically only "unless a
  collision is found" are stated as reductions: the theorem exhibits the two distinct colliding inputs.
* **Soundness** is stated as special soundness (an extractor for two accepting transcripts with the same
  first message), **privacy** as an exact bijection between random tapes (perfect indistinguishability).
* **Concurrency / crashes** are explicit small-step state machines; theorems quantify over all schedules,
  histories and crash points.
* **Violations.** Where the Go code does not have the property, the model keeps the code's behaviour, a
  theorem with suffix `_violated` proves the negation with a concrete witness, and a `_partial` theorem proves what
  does hold. These are listed in section 5.

## 2. Layout

| file(s) | content |
|---|---|
| `Verif/Base/*` | `Res`, bytes, big-endian integers, list sums |
| `Verif/Suite.lean`, `Verif/Toy.lean` | abstract pairing suite; concrete instance |
| `Verif/Dlog/*` | `bccsp/schemes/dlog/crypto` and `bridge` |
| `Verif/Bbs/*` | `bbs/` |
| `Verif/Aries/*` | `bccsp/schemes/aries` |
| `Verif/WeakBB.lean` | weak Boneh-Boyen signatures of the dlog scheme |
| `Verif/Provider/*` | `bccsp/handlers`, `bccsp/bccsp.go`, `bccsp/impl.go`, `bccsp/keystore` |
| `Verif/Msp/*` | `msp/` |
| `Verif/Tools/*` | `tools/idemixgen`; a complete toy run (`Examples.lean`) |
| `Verif/Mem/*` | the BBS+, dlog and aries operations with pointers and goroutines, and their refinement of `Verif/Bbs`, `Verif/Dlog` and `Verif/Aries` |
| `*/Spec*.lean` | small specifications, independent of the model |
| `*/Props*.lean` | the property theorems (`Cnn_...`) and their non-vacuity examples |

## 3. Plan per property

| id | modelled | proof |
|---|---|---|
| C01 | `newIssuerKey`, `Check`, import | algebra in the modules; length invariants |
| C02 | duplicate check, bridge import | list induction; iff |
| C03 | `Check` | special soundness, field inversion |
| C04 | `newCredRequest`, `Check`, bridge | algebra; decision logic |
| C05 | `Check` | special soundness; transcript injectivity |
| C06 | `newCredential`, `Credential.Ver` | algebra + induction on attribute lists (pairwise loops) |
| C07 | `newCredential`, bridge `Sign` | decision logic |
| C08 | `Credential.Ver`, bridge `Verify` | pairing non-degeneracy |
| C09 | `prepare`, `finalise`, `Ver` | algebra + list induction |
| C10 | `Ver` | extractor |
| C11 | `Ver` transcript | injectivity of concatenation with fixed lengths |
| C12 | `prepare`, `finalise` | explicit tape bijection |
| C13 | `Ver` | case analysis |
| C14 | `Ver` | extractor (same challenge difference); negation when the attribute is disclosed |
| C15 | audits | iff; linear relation |
| C16 | `finalise`, `Ver`, audits | algebra |
| C17 | nym signatures | algebra, extractor, transcript injectivity |
| C18 | `makeNym` | one-dimensionality of G1 |
| C19 | `Ver` | negation (arguments unused) |
| C20 | `createCRI`, `verifyEpochPK`, bridges | abstract ECDSA; negation for dlog, positive for aries |
| C21 | buffer-writing helpers | the imperative buffer model refines concatenation |
| C22 | bridge | outcome analysis |
| C23 | translators | abstract point codec; negation for Gurvy |
| C24 | BBS+ sign/verify | algebra |
| C25 | verify | pairing non-degeneracy |
| C26 | PoK | algebra + list induction |
| C27 | `ProofG1.Verify` etc. | extractor with exact response count; forgery as negation |
| C28 | payload codec | bit-level induction |
| C29 | codecs | append/take/drop induction |
| C30 | parsers | outcome analysis; negation witnesses |
| C31 | calcData | injectivity of big-endian encoding |
| C32 | cache | small-step semantics, invariant |
| C33 | FrFromOKM | big-endian arithmetic in `ZMod r` |
| C34 | seeds | decision logic; negation for the empty seed |
| C35 | sumOfG1Products | induction by two |
| C36–C45 | aries | as for dlog/BBS |
| C46–C52 | provider, handlers, key store | decision logic, invariants over histories, crash semantics |
| C53–C59 | MSP, idemixgen | structural induction on principals; decision logic; end-to-end composition |
| C60 | weak-BB | algebra |
| C61 | aries scheme, MSP | no-panic lemmas per primitive; explicit crashing inputs where violated |
| C62 | `idemixgen` `main` as a list of file operations | induction over interrupted runs; explicit interruption where violated |
| C63 | aries `Verify`, challenge computation | challenge equality by cases; explicit collision or relation |
| C64, C65 | aries `Sign`, BBS+ `DeriveProof` as functions of the random tape | explicit bijection of tapes giving equal outputs |
| C66 | MSP objects in two heaps | both set-ups determine the same fields apart from the signer; the functions use no others |
| C67 | generator, set-up, serialization, provider | composition of C59, C58, C55, C52 and C66 |
| C68 | providers of four parties that exchange bytes | one scheme-independent run, reduced to what each scheme provides; composition of C04–C09, C15–C20, C36–C45, C46, C52 |
| C69 | what is hashed for each kind of proof, dlog and aries | comparison of lengths, labels and first bytes of encodings; explicit colliding pair; exact condition where two layouts can coincide |
| C70 | key store calls as interleaved system calls (open and empty, write a chunk, read a chunk) | induction over schedules; invariant that the last call that emptied the file owns a correct beginning of it; explicit schedules where violated |
| C71, C72 | requests, pseudonyms and pseudonym signatures as functions of the random tape | explicit bijection of the tapes of whole series giving equal outputs; for dlog requests an explicit simulator, and where violated the exact condition of recognition |
| C73 | validation of identities over the platform with two oracles | what validation asks of the scheme (C57), then the extractors of C10 and C40 applied to the attributes that validation builds from unit and role |
| C74, C75 | BBS+ operations as programs with pointers over a heap (`Verif/Mem`): allocation, in-place arithmetic, copies, the caller's slices, the cache | a rely-guarantee logic: each program refines the model without memory and writes only what it allocated itself; induction over schedules; explicit schedule where violated |
| C76 | members generated by `idemixgen`, sessions of MSPs set up from their configurations (`Verif/Tools/PropsAnon.lean`) | bijection of the random tapes of a session (pseudonym, proof, signatures), from C12, C64, C72; what an observer reads where violated |
| C77 | key files with arbitrary contents, read by the JSON reader (`Verif/Base/Json.lean`, `Verif/Provider/Json.lean`) | case analysis of the look-up; C49 for the names; copied file and file without a point where violated |
| C78, C79 | the operations of the dlog scheme and of weak-BB as programs over the heap of `Verif/Mem`, with the hash field of issuer public keys as a cell | as C74, C75; for `Check` of keys its exact effect, and an explicit schedule where violated |
| C80 | the JSON reader against the grammar of RFC 8259 (`Verif/Base/JsonGrammar.lean`, `Verif/Base/Utf8.lean`), and descriptions of keys as JSON values (`Verif/Provider/PropsRewrite.lean`) | soundness and completeness of the reader by induction over texts and over derivations; folds over members |
| C81 | first parts of encoded messages (`Verif/Base/ProtoTorn.lean`), the file system states in which `signerconfig` can be stopped, and set-up from them (`Verif/Tools/PropsTorn.lean`) | which first parts of a message can be read, by induction over fields; then C58 and the credential check of the scheme exclude the parts without enrolment id; explicit interruption where violated |
| C82 | the exported functions of `blind_sign.go` on arbitrary bitmaps (`Verif/Aries/Model.lean`, `Verif/Aries/PropsBlind.lean`) | sums over marked and unmarked positions; completeness by evaluation of the protocol; hiding by a bijection of the random choices; extraction from two answers; explicit requests where violated |
| C83 | the accessors of `Idemixmsp` and of its identities (`Verif/Msp/Model.lean`, `Verif/Msp/PropsReports.lean`) | from the exact description of set-up (C58) and of deserialization (C55); set-up twice where violated |
| C84 | set-up on arbitrary signer configurations, and the generating functions on arbitrary masks (`Verif/Tools/PropsCertified.lean`) | from the exact descriptions of set-up (C58) and of the verification of credentials (C08, C38); the generated credential compared with the one asked for where violated |
| C85, C86 | the operations of the aries scheme as programs over the heap of `Verif/Mem`, with the counter of a card as a cell | as C74, C75; for `NymEid` its exact effect, goroutines whose cards are their own by a frame that excludes their integers, and an explicit schedule where violated |
| C87 | forgers as functions of what they see; an issuer without secret key that evaluates polynomials in the exponent (`Verif/Forge`) | it shows what `newIssuerKey` and `newCredential` give (equality of runs, for matching coins); the remainder of a polynomial division is linear in what its coins hide, so it vanishes for one in |F| of them; every choice of coins matches exactly one |
| C88 | requests not made by `Blind`; `Cred.Sign` for arbitrary commitments (`Verif/Aries/PropsEscalate.lean`, `Verif/Tools/PropsEscalate.lean`); the reduction of C87 with generators from hashing (`Verif/Forge/Aries.lean`) | violated: a commitment that contains the difference of wanted and approved attributes is accepted, and an MSP takes the holder for an administrator; partial: for requests with known openings, the reduction of C87 |
| C89 | signers as strategies that ask a hash function (`Verif/Fork/Game.lean`), played with the verifiers of C10 and C17 on random answers | the forking lemma, by counting answers (`Verif/Fork/Count.lean`), C10 and C17 on the two runs; with C87 for impostors who got credentials before |
| C90 | a dishonest holder who runs the model of `NewSignature` with programmed answers (`Verif/Fork/Adaptive.lean`) | violated: the values are no part of what is hashed, so they can be moved after the challenge is known; partial: forking lemma for values from a given collection, and for some credential behind any values |
| C91 | an attacker that has the model of `NewNymSignature` sign chosen messages, in the random oracle model (`Verif/Fork/Owner.lean`) | the owner's signatures are the same for every opening of the pseudonym, with choices that correspond one to one; so the opening that the forking lemma computes is another one than the owner's, except for the fraction 1/\|F\|, and both give the logarithm |
| C92 | `IsWellFormed`, `DeserializeIdentity` and `Serialize` on arbitrary bytes (`Verif/Msp/PropsWellFormed.lean`) | both begin by reading the same message; the empty message where violated |
| C93 | an attacker that has the models of `NewNymSignature` and `NewSignature` sign and show on demand, in the random oracle model (`Verif/Fork/Visit.lean`, `Verif/Fork/Member.lean`) | for every user secret there are pseudonym randomness, a credential number and choices, one to one, with which all answers are the same; the hash questions of presentations and of pseudonym signatures differ, except for one choice in \|F\|; then as for C91 |
| C94 | an observer who has the models of `NewSignature` and `NewNymSignature` answer adaptively, in the random oracle model (`Verif/Fork/Unlink.lean`) | the bijections of C12 and C72 applied to the choices for each request of a play give the same play for the other owner; requests whose blinding is zero are counted apart |
| C95 | the decoder and every parser of the code, and the marshalling of messages that were read, with undeclared fields kept where the code hashes or emits them (`Verif/Dlog/PropsExtra.lean`, `Verif/Aries/PropsExtra.lean`, `Verif/Msp/PropsExtra.lean`); a grammar of protobuf independent of the decoder (`Verif/Base/ProtoFields.lean`) | messages with added fields decode to field lists that differ in undeclared fields, at any depth; each parser reads declared fields only; concrete keys and revocation information where violated |
| C96 | a signer that is asked for `Sign` adaptively, and the reduction of C87 with generators for each number of messages (`Verif/Forge/Bbs.lean`) | the reduction shows the forger what the signer would, and solves the strong Diffie–Hellman problem unless one linear equation between hidden scalars holds; counting |
| C97 | makers of issuer keys and of credential requests as strategies that ask the hash function, and `Check` of both with that function (`Verif/Fork/Single.lean`, `Verif/Fork/PropsSingle.lean`) | the forking lemma for one question, by counting; the extractors of C01 and C04 applied to the two plays |
| C98 | provers as strategies, a verifier who fixes the disclosed messages, and `VerifyProof` (`Verif/Fork/BbsProof.lean`); the dishonest proof for chosen messages as a program (`Verif/Bbs/PropsWeak.lean`) | the forking lemma for one question, the extractor of C27 and the reduction of C96; for the violation, the verification equation is shown to hold for the shifted messages |
| C99 | makers of aries requests, of pseudonym signatures and of card signatures as strategies that ask the hash function, and the verifiers with that function (`Verif/Fork/PropsAries.lean`) | the forking lemma for one and for two questions; what is hashed determines the first messages; the extractors of C37, C42 and C43 applied to the two plays |
| C100 | forgers of aries signatures as strategies that ask the hash function, and `Signer.Verify` with that function (`Verif/Fork/AriesSign.lean`) | the forking lemma for two questions; what is hashed determines the first messages, given the length of the pseudonym; the extractor of C40 applied to the two plays, and the reduction of C88 |
| C101 | the wire format as an inductive predicate on byte strings that refers to the schema only (`Proto.Spec.Valid`), beside the parser | induction over the tokens the parser reads, both ways; well-founded induction on length for nested messages; each operation's first steps |
| C102 | the files as a function from paths to outcomes, a specification of what a directory contains, `getConfig` with the conversion of the type to 32 bits | case analysis of the reader, round trip of the codec, C58 for set-up |
| C103 | the verifiers of both schemes and of the card on the bytes, a specification of relations between points | injectivity of the transcripts and encodings, linear algebra with explicit coefficients, C95 for undeclared fields |
| C104 | verification by identities of both schemes on the raw bytes | exact characterisation of Verify (C56), then the binding of pseudonym signatures (C17, C42) |
| C105 | verification and audit of both schemes, for the violations on the raw bytes | extraction of the credential and the opening of the commitment (C14, C41), then exactness of the audit (C15) |
| C106 | verification of signatures and pseudonym signatures of both schemes | extraction from both signers (C10, C17, C40, C42), then two openings of one pseudonym give equal secrets or a computed relation |
| C107 | verification of signatures of both schemes | extraction of the credential and of the opening of the commitment from both signers (C14, C41), then two openings of one commitment give equal values or a computed relation |

## 4. Trusted base

* Lean 4.33.0's kernel; axioms at most `propext`, `Classical.choice`, `Quot.sound` (per-theorem list: section 6).
* That the Lean definitions faithfully transcribe the Go code (each cites its lines).
* The laws in `Suite` for the curves of `IBM/mathlib`: hypotheses of the theorems, satisfied by the instances in
  `Verif/Toy*.lean`.

### What is modelled

| code | model |
|---|---|
| `bccsp/schemes/dlog/crypto/*.go` | `Verif/Dlog/{Types,Issue,Sign,Wire}` and `Translator`: keys, requests, credentials, signatures with and without commitments to enrolment id and revocation handle, pseudonym signatures, audits, revocation information, translators |
| `bccsp/schemes/weak-bb/weak-bb.go` | `Verif/WeakBB` |
| `bccsp/schemes/dlog/bridge/*.go` | `Verif/Dlog/Bridge` (with `recover`) |
| `bbs/*.go` | `Verif/Bbs/*`; with pointers, in-place arithmetic and goroutines also `Verif/Mem/*` |
| `bccsp/types/*.go` | the types beside their uses; option defaults in `Verif/Provider/Types` |
| `bccsp/schemes/aries/*.go` | `Verif/Aries/*`, including the smartcard |
| `bccsp/impl.go`, `bccsp/bccsp.go`, `bccsp/handlers/*.go`, `bccsp/keystore/*.go` | `Verif/Provider/*` |
| `msp/*.go` | `Verif/Msp/*` |
| `tools/idemixgen` | `Verif/Tools/*` |
| `encoding/json` for the entries of the key store | `Verif/Base/Json` (grammar, strings, base64), `Verif/Provider/Json` (reading into the structures); what the key store relies on is proved |
| protobuf wire format of all these messages | `Verif/Base/Proto`, `*/Wire` (concrete encoder and decoder, round trips proved) |

### What is not modelled

* `IBM/mathlib` internals (field and curve arithmetic, pairings): parameter `Suite`.
* SHA-256, BLAKE2, HKDF, HMAC and the AES block: arbitrary functions. ECDSA, PEM, DER: parameters with the laws stated in
  `Ecdsa`, `EcKeys`, `Codec`.
* Logging, error texts beyond what is compared, command-line parsing and the `version` command of `idemixgen`.
* Tests, mocks, generated `.pb.go` accessors, `tools/idemixgen/metadata` and documentation.

### Simplifications

* Scalars are elements of the field of the group order; `NewZrFromBytes` is total; `InvModP(0) = 0`. Failure of the random
  source is not modelled.
* nil and empty byte slices are identified where protobuf and JSON do so. Slices have capacity equal to their length. nil
  entries in a list of credential attributes are not representable.
* The protobuf encoder writes fields in the order of their numbers, as the Go library does. The decoder bounds numbers to ten bytes and 64 bits, as the library does; it refuses groups nested more than 10000 deep. The library's limit on the depth of nested messages is left out: the declared messages are nested less than ten deep, so it plays no part. Unknown fields are kept where the code marshals a message that it has read: issuer public keys and the messages in them, revocation information for its digest, and aries credentials when they are unblinded. They are dropped from the unit and role when an identity is serialized and from the signer's file when a configuration is assembled.
* An issuer key without its public key is reported as a parse error where Go fails later.
* Outside `Verif/Mem` objects are values: the generators of the BBS+ cache are never mutated, and the sorting of the
  caller's index slice is not modelled. `Verif/Mem` models both and proves the first (C74, C75) for the BBS+ library. For the dlog scheme
  it also models the in-place arithmetic and the hash field of issuer public keys (C78, C79); other fields of protobuf messages
  and byte slices are values there too, and the messages of errors of a key's import are those of the causes. For the aries
  scheme it models the arithmetic and the counter of a card (C85, C86).
* `Verif/Mem`: `sync.Map` operations are atomic, and a point that `LoadOrStore` stores is allocated in the same step. A
  read or write of one group element, scalar or integer is one step. The methods of `IBM/mathlib` write only to their
  receiver (the bytes of a point are computed without normalising it in place). Signatures and proofs appear as the bytes they
  are encoded to. `sort.Ints` is insertion sort, which Go uses for up to 12 elements; the sorted slice is the
  same for every algorithm, the intermediate steps are not.
* C87, C88 and C96 (`Verif/Forge`) have statements about an explicit algorithm; that the strong Diffie–Hellman problem is hard is not
  assumed, used or expressible here. The algorithm gets `y` such that the generator it makes of it is `genG1`: as in the
  literature on BBS+, the generator of the curve counts as part of the random instance. Its running time is not modelled; it
  calls the forger once and makes polynomially many group operations, as can be read from `Spec.reduction`. For C88 and C96 it
  also chooses the values of the hash function that gives the generators, as in the random oracle model.
* The provider does not represent typed nil keys and options, nor the methods of keys of other packages. The translator of
  a key is the translator of its provider. The counter of a smartcard is state of the card, not of the provider.
* JSON: a `null` in an array of numbers for a byte slice counts as zero.
* `GenGt` is the pairing of the generators.
* Files are identified by their cleaned path; a completed write survives a crash of the process; `os.Stat` fails only if
  nothing is there. C70 interleaves the system calls of the key store; those of the other tools are not interleaved,
  except for the race of `C59_race_violated`.
* MSP: keys of another provider are treated as keys of a foreign type. Role and unit of an identity are not nil, since
  every function that makes an identity sets them. Enum values of the fabric messages: ROLE 0, ORGANIZATION_UNIT 1,
  IDENTITY 2, ANONYMITY 3, COMBINED 4; MEMBER 0, ADMIN 1, CLIENT 2, PEER 3, ORDERER 4; NOMINAL 0, ANONYMOUS 1.
* The audits of the aries scheme with a nil scalar panic first in the model; which panic comes first is not observable.

## 5. Disagreements between the code and the listed properties

Each item is proved of the model by the theorems named; the concrete witnesses are beside them.

**Forgery and soundness**

1. `bbs` `ProofG1.Verify` does not compare the number of responses with the number of bases. With one response too many the
   challenge is paired with nothing, and a fixed byte string is accepted under every key. `C27_violated` (BBS+ proofs),
   `C40_violated` and `C63_violated` (aries signatures), `C42_violated` (aries pseudonym signatures),
   `C37_responses_violated` (aries credential requests).
2. Which messages a proof reveals is read from the proof; a verifier who expects more is not told. `C27_surplus_violated`,
   `C40_disclosure_violated`. The count in the payload is not compared with the key's.
3. The positions of enrolment id and revocation handle that aries commitments are checked against come from the signature.
   `C41_violated`.
4. The challenge of an aries credential request is computed from one commitment, the verification equation uses another.
   `C37_violated`. `Cred.Sign` does not verify the request at all.
5. In the dlog scheme the commitment to the enrolment id is bound to it only if the attribute is hidden.
   `C14_disclosed_eid_not_bound`.
6. An MSP's validation never looks at the pseudonym of the identity: anyone can attach their own pseudonym to a valid proof.
   `C56_violated`, `C56_impersonation_violated`.
7. `Idemixmsp.Validate` verifies against the key of the MSP object that the identity refers to. `C57_violated`.
8. An empty seed that is not nil gives a constant BBS+ key. `C34_empty_seed_violated`.
   (Domain separation: dlog pseudonym signatures use the label of signatures, and aries requests carry no label, so that the
   hash inputs of two kinds of proofs can be one string: `C69_nym_violated`, `C69_aries_request_violated`. Privacy: dlog
   credential requests carry `h_sk` to the power of the secret, so that the requests of one user are recognised,
   `C71_dlog_requests_linkable_violated`.)

**Revocation**

9. Signature verification ignores revocation key and epoch. `C19_violated`, `C19_dlog_provider_violated`,
   `C19_aries_provider_violated`. An MSP never sets its epoch from the configuration.
10. `Revocation.Verify` of the dlog bridge ignores the requested epoch and algorithm; that of aries ignores those carried.
    `C20_dlog_violated`, `C20_aries_violated`.

**Panics**

11. Parsers of the BBS+ library slice without checking: `C30_signatureProof_violated`, `C30_verifyProof_violated`. The aries
    scheme has no `recover`, so that a peer can be crashed remotely: `C61_verify_violated`, `C61_issuance_violated`,
    `C61_remote_violated`, `C53_aries_violated`.
12. Set-up panics on an empty issuer key, any malformed aries key, and missing points on gnark curves:
    `C58_empty_key_violated`, `C58_aries_key_violated`, `C58_gurvy_key_violated`.
13. `SatisfiesPrincipal` panics on signing identities with an ADMIN or unit principal and on a nil principal:
    `C53_signing_violated`, `C53_nil_violated`.
14. Options of the other scheme reach nil handlers: `C46_violated`. `Issuer.Bases` of dlog always panics:
    `C22_bases_violated`. Aries audits with an index out of range: `C15_aries_index_violated`. Opening a key store:
    `C49_open`. Aries `Sign` with the secret last: `C39_position_violated`.

**State, storage, formats**

15. A failed set-up leaves the MSP renamed or half configured: `C58_renamed_violated`, `C58_half_configured_violated`.
16. The key store files pseudonym keys under another name than their identifier: `C48_violated`. Its writes are not atomic:
    `C49_violated`; a look-up during a second store of the key fails, `C70_lookup_violated`, and two stores at the same time
    that differ in the exportable flag leave a file nobody can read, `C70_settled_violated`.
17. Exported pseudonym secrets and revocation public keys cannot be imported: `C52_nym_key_violated`,
    `C52_revocation_public_violated`.
18. The gnark translator cuts or pads the second coordinate: `C23_gurvy_violated`, `C45_dlog_gurvy_violated`.
19. The smartcard's counter has 16 bits and wraps: `C44_violated`.
20. Payload indices past the count are accepted: `C28_range_violated`.
21. `SignWithKeyFr` with a count other than the number of messages: `C24_count_violated`.
22. The aries issuer never records the position of the secret: `C38_position_violated`.
23. `idemixgen` checks and then writes: `C59_race_violated`; an interrupted key generation goes unnoticed and cannot be
    repeated: `C62_unnoticed_violated`, `C62_no_repetition`.

24. `DeriveProofZr` sorts the slice of indices of its caller (`C74_violated`). Two derivations at the same time that share an
    unsorted slice race, and one can return a proof that does not verify: `C75_violated`, `C75_races_violated`.
25. `idemixgen` makes revocation information anew for each signer configuration, with a randomized ECDSA signature, and every
    identity carries that signature in the clear. All identities from one configuration can be recognised by it, although
    pseudonyms, proofs and signatures hide the member perfectly: `C76_dlog_marked_violated`, `C76_aries_marked_violated`.
26. `KVSStore.GetKey` does not compare the key it read with the identifier it was asked for, although it is documented to return
    "a key object whose SKI is the one passed" (`C77_violated`). `Gurvy.G1FromProto` dereferences a nil point, so that `GetKey`
    panics on the file `{"NymSecretKey":{}}` (`C77_panic_violated`); the FP256BN translators return an error.
27. `IssuerPublicKey.Check` is not read-only: it clears and then sets the hash of the key that it is given (`C78_violated`). A
    credential request that another goroutine makes for the same key object meanwhile can be one that the issuer rejects:
    `C79_violated`, `C79_races_violated`. The code of the repository calls it on new objects only.
28. Set-up of a dlog MSP does not check that the signer has revocation information. If `signerconfig` is interrupted after the
    enrolment id of the file, set-up succeeds with a signer whose identities nobody accepts: `C81_dlog_violated`.
29. `BlindMessages` takes an empty message as one that is not to be hidden, and `VerifyBlinding` reads past the end of the
    responses: a request for fewer hidden messages than the signer expects crashes it, also the honest request of a user who
    hides an empty message (`C82_empty_violated`, `C82_short_violated`). As for credential requests (1, 4), requests can be forged:
    `C82_forged_violated`.

30. `GetType` answers IDEMIX for aries MSPs too (`C83_type_violated`). Set-up without signer keeps the signer of the previous
    set-up (`C83_stale_signer_violated`).
31. A role mask with both bits set makes a signer configuration that set-up refuses: the credential carries 3, set-up asks
    for 2 (`C84_masks_violated`, `C84_aries_masks_violated`). dlog `GenerateSignerConfig` does not check that the issuer's
    secret and public keys belong together; no MSP accepts the signer (`C84_keys_violated`).
32. `GetIdemixMspConfig` does not record the curve, so that material for other curves than the default one is read on the
    wrong curve (`C59_curve_violated`).
33. `Smartcard.NymEid` is not safe for concurrent use: two goroutines that read the counter before one of them writes it get
    the same commitment with the same randomness (`C86_card_violated`, `C86_card_races_violated`). With a card of its own each
    goroutine gets what it would get alone (`C86_own_cards`).
34. As requests of the aries scheme can be forged (item on `C37_violated`), a user can put into the commitment of a request the
    difference between the attributes they want and the attributes the issuer approves: the issuer checks and signs the request
    as always, and the user holds a credential for the attributes they want (`C88_violated`). A member of one unit becomes an
    administrator of another, accepted by every MSP that trusts the issuer (`C88_admin_violated`). If users know the openings of
    their requests this is as hard as the strong Diffie–Hellman problem (`C88_solved_partial`).
35. The challenge of a dlog signature is computed from which attributes are disclosed, but not from their values. A holder can
    settle on values after the challenge is known and gets a signature that is accepted for values that their credential does not have
    (`C90_violated`). They cannot aim at given values: what they get is the value of the credential moved by a quotient with the
    challenge. So names and roles, which reach `Ver` as hashes or small numbers, are not forged this way
    (`C90_collection_partial`), but field elements that a verifier takes as they come are.
36. `IsWellFormed` accepts identities without content, which no MSP can read, and panics on nil (`C92_violated`).
37. `proto.Unmarshal` keeps fields that a message does not declare and `proto.Marshal` emits them again. The hash of a dlog
    issuer public key is computed from its marshalled form: a key with an undeclared field is accepted and has another hash, and
    what is made with one of the two keys is refused with the other (`C95_dlog_issuer_key_violated`). Revocation information
    is verified with the digest of its marshalled form: with an undeclared field in its epoch key (dlog,
    `C95_dlog_revocation_violated`) or anywhere (aries, `C95_aries_revocation_violated`) it is refused.
38. **C98**: the challenge of a BBS+ proof does not cover the disclosed messages. A holder of a signature makes proofs that
    `VerifyProofFr` accepts for scalars that differ from the signed ones wherever the holder likes (`C98_violated`), by choosing the
    scalars after the challenge. With `VerifyProof`, which hashes messages to scalars, the holder has to find messages with given hashes,
    and with `Signer.Verify` of aries small integers or such messages. The
    `_partial` theorems are about verifiers who fix the messages.
39. **C102**: `GetIdemixMspConfigWithType` converts the type, an `int`, to 32 bits without a check (`idemixmsp.go:947`). The type
    4294967297 makes a configuration of an idemix MSP as the type 1 does, and the type 2147483648 one with a negative type, although
    negative types are refused (`C102_type_violated`). A signer's file that exists but cannot be read is not reported: the MSP comes
    up without signer (`C102_contents`).
40. **C103**: a signature can be altered and stays valid. Undeclared fields may be added to signatures and pseudonym signatures of
    both schemes (`C103_bytes_violated`, `C103_aries_bytes_violated`). The epoch, the epoch key and the signature on the epoch key in
    a dlog signature are covered by no proof and compared with nothing (`C103_revocation_fields_violated`). The first sixteen bytes
    of a card signature and whatever follows its responses are not read (`C103_card_violated`). Whoever uses the bytes of a signature
    as an identifier, for instance to detect replays, is deceived.
41. **C104**: a signature says nothing about unit and role. For any two valid identities of a provider, every signature of the second
    counts for an identity that the provider validates and that has the unit and role of the first (`C104_attribution_violated`).
    This holds in both schemes. It is the consequence of item C56 for whoever attributes a signature to a unit or role.
42. **C105**: verification ignores commitments that its type does not ask for, and the audits do not verify. Basic verification (the
    default, used by the membership service providers) ignores both commitments, as its comment in `idemixopts.go:434` says;
    `ExpectEidNym`, and `ExpectSmartcard` in the aries scheme, ignore the one to the revocation handle, which no comment says.
    So a commitment to anybody's identifier or handle can be put into an accepted signature; it is accepted as before and passes
    the audit (`C105_enrollment_violated`, `C105_handle_violated`, `C105_aries_violated`). Auditors must verify with a type
    that asks for the commitment they audit.

**Noted while modelling, without a theorem of their own**

* `Credential.Ver` of dlog accepts the neutral element as `A` if the signed point is neutral.
* The provider of `NewAries` has no operation that unblinds a credential: the user has to call `CredRequest.Unblind`
  themselves (C68 does so).
* Importing an issuer secret key without public key and asking for its hash panics.
* The labels in front of the challenge's input are not prefix free; C10 and C14 compare signatures of one pattern, and C69
  asks that the encoding of a point does not begin with certain letters.

## 6. Axioms of each theorem

From `#print axioms` of every theorem named in `MANIFEST.json` (470 theorems; names without the leading `Idemix.`).

* **`propext`**: `Provider.C49_open`, `Provider.C50_empty_identifier`

* **`propext`, `Quot.sound`**: `Dlog.C04_bridge_request_bad_length`, `Aries.C15_aries_index_violated`, `Dlog.C15_bridge_audit_eid`, `Dlog.C15_bridge_audit_rh`, `Dlog.C15_index_out_of_range`, `Dlog.C19_epoch_and_revocation_key_ignored`, `Aries.C20_aries_violated`, `Dlog.C20_dlog_sign_succeeds`, `Dlog.C22_bases_violated`, `Dlog.C23_gurvy_partial`, `Bbs.C29_key_roundtrip`, `Bbs.C30_signature_no_panic`, `Bbs.C30_proof_no_panic`, `Bbs.C30_signatureProof_violated`, `Bbs.Cache.C32_cache_transparent`, `Bbs.Cache.C32_calls_agree`, `Bbs.C33_okm_scalar`, `Bbs.C34_seed_deterministic`, `Bbs.C34_seed_length`, `Bbs.C34_key_pair`, `Bbs.C34_empty_seed_violated`, `Bbs.C34_partial`, `Dlog.C45_dlog_nym_too_short`, `Provider.C46_last_registration`, `Provider.C46_bad_registration`, `Provider.C46_constructor`, `Provider.C46_sign_dispatch_partial`, `Provider.C46_verify_dispatch_partial`, `Provider.C46_base_sign_partial`, `Provider.C46_base_verify_partial`, `Provider.C46_violated`, `Provider.C46_C47_keyGen`, `Provider.C46_C47_keyDeriv`, `Provider.C46_C47_keyImport`, `Provider.C47_history`, `Provider.C48_lookup_partial`, `Provider.C48_store_result`, `Provider.C48_violated`, `Provider.C48_provider_history_partial`, `Provider.C48_dummy`, `Provider.C51_private`, `Provider.C51_made_keys_sealed`, `Provider.C51_public_keys`, `Provider.C52_revocation_public_violated`, `Provider.C52_revocation_public_partial`, `Msp.C53_no_panic_partial`, `Msp.C53_nil_violated`, `Msp.C54_msp_roles`, `Msp.C55_round_trip`, `Msp.C55_other_msp_refused`, `Msp.C55_deserialized`, `Msp.C56_violated`, `Msp.C56_verify_exact`, `WeakBB.C60_nil_refused`, `Aries.C69_aries_request_exact`, `Mem.C78_check_sets_hash`, `Mem.C78_check_again`, `Gen.C81_wellFormed`, `ForgeAries.C88_exponents`, `Fork.C91_owner_pseudonym`, `Msp.C92_read_partial`, `Msp.C92_serialized_partial`, `Msp.C92_same_everywhere`, `Msp.C92_violated`, `Fork.C93_pseudonyms`, `Fork.C94_pseudonyms`, `Dlog.C95_dlog_revocation_partial`, `Msp.C104_attribution_violated`

* **`propext`, `Classical.choice`, `Quot.sound`**: `Dlog.C01_generated_issuer_key_imports`, `Dlog.C01_generated_issuer_key_validates`, `Dlog.C02_import_attribute_names`, `Dlog.C02_import_success`, `Dlog.C02_import_categories`, `Dlog.C02_keygen_rejects_duplicates`, `Dlog.C03_validated_key_well_formed`, `Dlog.C03_issuer_key_extraction`, `Dlog.C04_bridge_request_nonce`, `Dlog.C04_bridge_request_roundtrip`, `Dlog.C04_request_accepted`, `Dlog.C04_request_without_nonce_refused`, `Dlog.C05_request_extraction`, `Dlog.C05_request_binding`, `Dlog.C06_bridge_issuance`, `Dlog.C06_issued_credential_verifies`, `Dlog.C07_bridge_issuer_refuses`, `Dlog.C07_issuer_refuses_bad_requests`, `Dlog.C07_issuer_accepts_good_requests`, `Dlog.C08_bridge_attributes`, `Dlog.C08_credential_verification_exact`, `Dlog.C08_one_secret_per_credential`, `Dlog.C08_same_signature_attribute_relation`, `Dlog.C08_one_place`, `Dlog.C09_bridge_honest_signature`, `Dlog.C09_honest_signature_verifies`, `Dlog.C10_signature_extraction`, `Dlog.C11_signature_binding`, `Dlog.C11_values_one_place`, `Dlog.C12_perfect_anonymity`, `Aries.C13_aries_verification_types`, `Dlog.C13_bridge_verify_exact`, `Dlog.C13_verification_types`, `Dlog.C14_disclosed_eid_not_bound`, `Dlog.C14_pseudonyms_bound_to_credential`, `Aries.C15_aries_eid_exact`, `Aries.C15_aries_rh_exact`, `Aries.C15_aries_openings_audit`, `Aries.C15_aries_eid_binding`, `Aries.C15_aries_rh_binding`, `Dlog.C15_audit_exact`, `Dlog.C15_raw_audit_exact`, `Dlog.C15_audit_binding`, `Aries.C16_aries_verifier_checks_metadata`, `Aries.C16_aries_supplied_metadata_must_match`, `Dlog.C16_verifier_checks_metadata`, `Dlog.C16_returned_metadata_consistent`, `Dlog.C16_supplied_metadata_must_match`, `Dlog.C17_bridge_nym_signature`, `Dlog.C17_nym_signature_complete`, `Dlog.C17_nym_signature_extraction`, `Dlog.C17_nym_signature_binding`, `Aries.C18_aries_nym_hides_user`, `Dlog.C18_nym_hides_user`, `Dlog.C19_violated`, `Dlog.C19_revocation_data_partial`, `Provider.C19_dlog_provider_violated`, `Provider.C19_aries_provider_violated`, `Provider.C19_aries_provider_partial`, `Aries.C20_aries_signed_verifies`, `Aries.C20_aries_partial`, `Dlog.C20_dlog_signed_verifies`, `Dlog.C20_dlog_violated`, `Dlog.C20_dlog_partial`, `Dlog.C21_issuer_key_transcript`, `Dlog.C21_request_transcript`, `Dlog.C21_request_transcript_truncates`, `Dlog.C21_nym_signature_transcript`, `Dlog.C21_signer_transcript`, `Dlog.C21_verifier_transcript`, `Dlog.C21_second_hash`, `Dlog.C22_bridge_never_panics`, `Dlog.C23_fp256bn`, `Dlog.C23_fp256bn_miracl`, `Dlog.C23_gurvy_violated`, `Bbs.C24_verify_exact`, `Bbs.C24_sign_scalars_verifies`, `Bbs.C24_sign_verifies`, `Bbs.C24_count_violated`, `Bbs.C25_binding`, `Bbs.C25_binding_length`, `Bbs.C26_derived_proof_verifies`, `Bbs.C26_derived_proof_scalars`, `Bbs.C26_empty_refused`, `Bbs.C27_extraction_partial`, `Bbs.C27_violated`, `Bbs.C27_surplus_violated`, `Bbs.C28_payload_roundtrip`, `Bbs.C28_count_refused`, `Bbs.C28_index_refused_partial`, `Bbs.C28_range_violated`, `Bbs.C28_parse_length`, `Bbs.C29_signature_roundtrip`, `Bbs.C29_proof_roundtrip`, `Bbs.C29_signatureProof_roundtrip`, `Bbs.C30_payload_no_panic`, `Bbs.C30_verifyProof_violated`, `Bbs.C30_signatureProof_partial`, `Bbs.C31_inputs_distinct`, `Bbs.C31_inputs_disjoint`, `Bbs.Cache.C32_no_blocking`, `Bbs.C35_multiexp`, `Bbs.C35_too_few`, `Aries.C36_keys`, `Aries.C36_issuance`, `Aries.C36_issuance_position_zero`, `Aries.C37_violated`, `Aries.C37_responses_violated`, `Aries.C37_extraction_partial`, `Aries.C37_nonce_binding_partial`, `Aries.C38_verify_exact`, `Aries.C38_position_violated`, `Aries.C39_signatures_verify_partial`, `Aries.C39_position_violated`, `Aries.C40_extraction_partial`, `Aries.C40_violated`, `Aries.C40_disclosure_violated`, `Aries.C41_eid_partial`, `Aries.C41_rh_partial`, `Aries.C41_violated`, `Aries.C42_binding_partial`, `Aries.C42_complete`, `Aries.C42_violated`, `Aries.C42_extraction_partial`, `Aries.C43_nym_signatures_verify`, `Aries.C43_signatures_verify_partial`, `Aries.C43_nym_verify_exact`, `Aries.C43_extraction`, `Aries.C44_derivation_inputs`, `Aries.C44_repeats`, `Aries.C44_inputs_distinct_partial`, `Aries.C44_violated`, `Aries.C45_aries_user_key`, `Aries.C45_aries_nym`, `Aries.C45_aries_public_nym`, `Dlog.C45_dlog_user_key`, `Dlog.C45_dlog_nym_roundtrip`, `Dlog.C45_dlog_amcl_exact_length`, `Dlog.C45_dlog_gurvy_violated`, `Provider.C48_files_keep`, `Provider.C49_others_partial`, `Provider.C49_stored_key_partial`, `Provider.C49_never_wrong`, `Provider.C49_history_never_wrong`, `Provider.C49_reported`, `Provider.C49_violated`, `Provider.C50_inside_directory`, `Provider.C50_injective`, `Provider.C50_same_place`, `Provider.C50_place`, `Provider.C51_history_sealed`, `Provider.C51_dlog_issuer_exports`, `Provider.C51_aries_issuer_exports`, `Provider.C52_user_key`, `Provider.C52_revocation_key`, `Provider.C52_dlog_nym`, `Provider.C52_aries_nym`, `Provider.C52_dlog_issuer`, `Provider.C52_aries_issuer`, `Provider.C52_nym_key_violated`, `Provider.C52_nym_key_partial`, `Msp.C53_aries_violated`, `Msp.C53_dlog_no_panic`, `Msp.C53_policies`, `Msp.C53_principal_exact`, `Msp.C53_signing_violated`, `Msp.C53_signing_partial`, `Msp.C54_mask_bits`, `Msp.C54_contains_iff_mem`, `Msp.C54_single_role`, `Msp.C54_masks_determine_sets`, `Msp.C56_impersonation_violated`, `Msp.C56_partial`, `Msp.C57_validate_exact`, `Msp.C57_own_identities_partial`, `Msp.C57_violated`, `Msp.C57_deserialized`, `Msp.C58_setup_exact`, `Msp.C58_nil_config`, `Msp.C58_empty_key_violated`, `Msp.C58_aries_key_violated`, `Msp.C58_gurvy_key_violated`, `Msp.C58_half_configured_violated`, `Msp.C58_renamed_violated`, `Msp.C58_failed_partial`, `Msp.C58_dlog_no_panic_partial`, `Gen.C59_curve_violated`, `Gen.C59_keygen_refuses`, `Gen.C59_keygen_keeps`, `Gen.C59_signer_refuses`, `Gen.C59_signer_keeps`, `Gen.C59_keygen_writes`, `Gen.C59_race_violated`, `Gen.C59_dlog_end_to_end`, `Gen.C59_aries_end_to_end`, `Gen.C59_dlog_accepted`, `Gen.C59_refused`, `Gen.C59_aries_accepted`, `Gen.C59_utf8_refused`, `WeakBB.C60_signature_verifies`, `WeakBB.C60_only_signed_message`, `WeakBB.C60_unique`, `Aries.C61_verify_violated`, `Aries.C61_small_objects`, `Aries.C61_verify_partial`, `Aries.C61_issuance_violated`, `Msp.C61_remote_violated`, `Gen.C62_interrupted_keygen`, `Gen.C62_signer_after`, `Gen.C62_no_repetition`, `Gen.C62_unnoticed_violated`, `Aries.C63_message_binding_partial`, `Aries.C63_disclosure_binding_partial`, `Aries.C63_violated`, `Aries.C64_aries_anonymity`, `Bbs.C65_hidden_messages_hidden`, `Msp.C66_agreement`, `Gen.C67_dlog_recognised`, `Gen.C67_aries_recognised`, `Provider.C68_dlog_life_cycle`, `Provider.C68_aries_life_cycle`, `Aries.C69_aries_kinds_partial`, `Aries.C69_aries_request_violated`, `Dlog.C69_dlog_kinds_partial`, `Dlog.C69_nym_and_standard_partial`, `Dlog.C69_nym_violated`, `Provider.C70_others_partial`, `Provider.C70_alone`, `Provider.C70_never_wrong_partial`, `Provider.C70_settled_partial`, `Provider.C70_lookup_violated`, `Provider.C70_settled_violated`, `Aries.C71_aries_requests_hide_secrets`, `Dlog.C71_dlog_requests_linkable_violated`, `Dlog.C71_dlog_requests_simulated_partial`, `Aries.C72_aries_pseudonyms_hide_users`, `Dlog.C72_pseudonyms_hide_users`, `Fork.C72_adaptive`, `Msp.C73_dlog_identity_rests_on_credential`, `Msp.C73_aries_identity_rests_on_credential_partial`, `Mem.C74_arguments_unchanged_partial`, `Mem.C74_violated`, `Mem.C74_only_slice_sorted_partial`, `Mem.C74_in_turn_partial`, `Mem.C75_concurrent_calls_partial`, `Mem.C75_violated`, `Mem.C75_races_violated`, `Mem.C75_no_races_partial`, `Mem.C75_calls_return`, `Gen.C76_dlog_members_hidden_partial`, `Gen.C76_aries_members_hidden_partial`, `Gen.C76_dlog_marked_violated`, `Gen.C76_aries_marked_violated`, `Provider.C77_panic_exact`, `Provider.C77_no_panic_partial`, `Provider.C77_panic_violated`, `Provider.C77_names_partial`, `Provider.C77_violated`, `Mem.C78_arguments_unchanged_partial`, `Mem.C78_violated`, `Mem.C78_in_turn_partial`, `Mem.C79_concurrent_calls_partial`, `Mem.C79_violated`, `Mem.C79_races_violated`, `Mem.C79_no_races_partial`, `Mem.C79_calls_return`, `Provider.C80_grammar`, `Provider.C80_rewritten`, `Provider.C80_refused`, `Provider.C80_source`, `Provider.C80_same_value`, `Provider.C80_written`, `Gen.C81_torn_file`, `Gen.C81_interrupted_signer`, `Gen.C81_verifier`, `Gen.C81_dlog_partial`, `Gen.C81_dlog_violated`, `Gen.C81_aries`, `Aries.C82_blind_scalars`, `Aries.C82_blind_messages`, `Aries.C82_all_hidden`, `Aries.C82_short_violated`, `Aries.C82_empty_violated`, `Aries.C82_forged_violated`, `Aries.C82_extraction_partial`, `Aries.C82_requests_hide`, `Msp.C83_msp_partial`, `Msp.C83_type_violated`, `Msp.C83_signer`, `Msp.C83_no_signer_partial`, `Msp.C83_stale_signer_violated`, `Msp.C83_deserialized`, `Gen.C83_certifier`, `Gen.C84_dlog_certified`, `Gen.C84_aries_certified`, `Gen.C84_masks_violated`, `Gen.C84_aries_masks_violated`, `Gen.C84_keys_violated`, `Mem.C85_arguments_unchanged`, `Mem.C85_in_turn`, `Mem.C85_card_counter`, `Mem.C86_concurrent_calls_partial`, `Mem.C86_no_races_partial`, `Mem.C86_own_cards`, `Mem.C86_own_cards_no_races`, `Mem.C86_card_violated`, `Mem.C86_card_races_violated`, `Mem.C86_calls_return`, `Forge.C87_same_view`, `Forge.C87_sound`, `Forge.C87_solved`, `Forge.C87_guess`, `Forge.C87_coins`, `Forge.C87_credentials`, `Forge.C87_signatures`, `Aries.C88_violated`, `ForgeAries.C88_same_view_partial`, `ForgeAries.C88_sound_partial`, `ForgeAries.C88_solved_partial`, `ForgeAries.C88_requests`, `ForgeAries.C88_credentials`, `ForgeAries.C88_signatures`, `Gen.C88_admin_violated`, `Fork.C89_knowledge`, `Fork.C89_impostors`, `Fork.C89_pseudonyms`, `Fork.C90_violated`, `Fork.C90_collection_partial`, `Fork.C90_credential_partial`, `Fork.C91_owner_signs`, `Fork.C91_pseudonyms_unforgeable`, `Fork.C93_credential`, `Fork.C93_shows`, `Fork.C93_pseudonyms_with_credentials`, `Fork.C94_members_answer`, `Fork.C94_unlinkable`, `Aries.C95_aries_partial`, `Aries.C95_aries_revocation_violated`, `Dlog.C95_dlog_partial`, `Dlog.C95_dlog_issuer_key_partial`, `Dlog.C95_dlog_issuer_key_violated`, `Dlog.C95_dlog_revocation_violated`, `Msp.C95_msp`, `Msp.C95_msp_directory`, `ForgeBbs.C96_same_view`, `ForgeBbs.C96_sound`, `ForgeBbs.C96_solved`, `ForgeBbs.C96_same_messages`, `ForgeBbs.C96_signatures`, `ForgeBbs.C96_proofs`, `ForgeBbs.C96_forgery`, `ForgeBbs.C96_exponents`, `ForgeBbs.C96_guess`, `Fork.C97_issuer_keys`, `Fork.C97_requests`, `Bbs.C98_violated`, `Fork.C98_knowledge_partial`, `Fork.C98_impostors_partial`, `Fork.C99_requests_partial`, `Fork.C99_nym_signatures_partial`, `Fork.C99_card_signatures`, `Fork.C100_knowledge_partial`, `Fork.C100_impostors_partial`, `Aries.C101_aries_exact`, `Aries.C101_aries`, `Dlog.C101_dlog`, `Dlog.C101_dlog_exact`, `Msp.C101_msp`, `Msp.C101_msp_exact`, `Gen.C102_succeeds`, `Gen.C102_contents`, `Gen.C102_type_partial`, `Gen.C102_type_violated`, `Gen.C102_setup`, `Aries.C103_aries_bytes_violated`, `Aries.C103_aries_nym_signature_partial`, `Aries.C103_aries_signature_partial`, `Aries.C103_card_violated`, `Aries.C103_card_partial`, `Aries.C103_aries_commitments_partial`, `Dlog.C103_bytes_violated`, `Dlog.C103_revocation_fields_violated`, `Dlog.C103_nym_signature_partial`, `Dlog.C103_signature_partial`, `Msp.C104_dlog_partial`, `Msp.C104_aries_partial`, `Aries.C105_aries_violated`, `Aries.C105_aries_eid_partial`, `Aries.C105_aries_rh_partial`, `Dlog.C105_enrollment_violated`, `Dlog.C105_handle_violated`, `Dlog.C105_dlog_partial`, `Aries.C106_aries_signatures_partial`, `Aries.C106_aries_nym_signatures_partial`, `Dlog.C106_dlog_signatures`, `Dlog.C106_dlog_nym_signatures`, `Aries.C107_aries_enrollment_partial`, `Aries.C107_aries_handle_partial`, `Dlog.C107_dlog_enrollment_partial`, `Dlog.C107_dlog_handle_partial`
