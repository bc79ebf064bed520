# Formal model of synedrion in Lean 4

`properties.jsonl` lists the properties (C01…). `lean/Verif/` holds the model and the proofs.
`MANIFEST.json` maps each property to the theorems that carry it.
`seeded/LOG.jsonl` records the deliberate bugs the theorems were tested against.

## Layout

| directory | contents |
|---|---|
| `lean/Verif/Model/` | definitions only; each cites the file and lines in `/repo` it models |
| `lean/Verif/Spec/` | small specifications, independent of the model (integer intervals, ECDSA validity, …) |
| `lean/Verif/Lemmas/` | helper lemmas about the model |
| `lean/Verif/Props/` | the property theorems, each with an `example` that meets its hypotheses |

## Modelling decisions

* **Panics and errors are data.** `Out ε α` is `ok a | err e | panic`. A Rust `expect`, `assert!`, index
  out of bounds or arithmetic underflow becomes `panic`; `Result::Err` becomes `err`.
* **Fixed-width integers** (`crypto_bigint::Uint`) are `BitVec w` for an arbitrary width `w`. `SecretSigned`,
  `PublicSigned` and `SecretUnsigned` are modelled bit-exactly, with their tracked bound.
  The bit-level model is shown to refine a small bound-tracking integer type `SInt`
  (an integer, a bound, and the same "panic if the bound reaches the width" rule). The ZK provers
  are written over `SInt`, so that the overflow panics stay visible.
* **Curve.** Scalars are a field `F` (concretely `ZMod q`, `q` an odd prime); points are an `F`-module `G`
  with a generator `g` such that `a • g = b • g → a = b` where needed. The concrete curve formulas of
  `k256` are outside the model.
* **Paillier / ring-Pedersen** live in `ZMod N`, `ZMod (N^2)`. Montgomery form is value-transparent.
  Exponentiation by signed integers keeps the code's panics: a secret signed exponent always inverts, a public
  one inverts only when negative.
* **Hashes, XOFs and RNGs** are parameters: a challenge is an arbitrary function of what is hashed; random draws are
  explicit arguments, so "for all randomness" is a universal quantifier.
* **`BTreeMap`/`BTreeSet`** are sorted association lists/lists; iteration is in key order.
* **manul** (session layer: signatures, echo rounds, serialization) is outside the repository. Assumed: the messages
  handed to `receive_message` and to the evidence check are the ones the sender signed; combined echoes of a
  party contain the echo-broadcasts of all *other* parties in that round.
* **Constant time, zeroization, memory safety, performance** are not expressible in the model.

## Trusted base

* Lean 4.33.0 kernel. Axioms: only `propext`, `Classical.choice`, `Quot.sound` (`tools/axioms.sh` prints
  them for every theorem in the manifest). No `sorry`, no `native_decide`, no `bv_decide`, no own axioms.
* The reading of the Rust source in the model's comments.
* Third-party crates are assumed to behave as documented: `crypto-bigint` (wrapping/checked ops, Montgomery
  arithmetic, gcd, inversion), `k256`/`elliptic-curve`/`ecdsa` (group law, encoding, signature checks), `sha3`
  (modelled as an arbitrary function), `manul`, `serde`.

## Plan per property

C01, C02 (signed arithmetic, bounds): `Model/Signed.lean` over `BitVec w`. Invariant `|v| < 2^bound ∧ bound < w`; prove it and
exactness for each operation, then by induction over expression trees (refinement to ℤ). C02 is false for
`SecretSigned::new_positive`, which ignores the declared bound: prove the negation with a witness, and the `_partial`
theorem for all other constructors.
C03, C04 (range check, sampling): exact characterisation by integer interval; sampling as bijection onto the interval.
C05, C06 (wire encodings): byte-list models of `PackedSigned`, `PackedBitVec`; round trip and rejection.
C07 (conversions): `ZMod q` and centred representatives.
C08 (hash framing): injectivity of length-prefixed concatenation by induction over the list of chunks.
C09, C10, C11 (Shamir, split): Horner evaluation, Lagrange coefficients as in the code; Mathlib `Lagrange` for the identity.
C10 is expected to be false because the code draws only non-zero coefficients: negation + partial.
C12–C18 (entities): `KeyShare`, `ThresholdKeyShare`, `AuxInfo` as records with association lists; C15 by induction over the
list of changes; C17 with the tweak function as a parameter.
C19–C24 (Paillier, CRT, ring-Pedersen): number theory in `ZMod`.
C25–C34 (ZK proofs): prover with explicit randomness and verifier as functions; completeness as "honest proof verifies iff the
responses are in range"; special soundness for Schnorr and elog; for `prm` and `mod` the verifier zips without checking lengths, so
"every challenge is answered" is false: negation with a truncated proof, and completeness as partial.
C34: for each verifier, acceptance forces the carried challenge to equal the recomputed one.
C35 (parameters): inequalities from `SELF_CONSISTENT`; provers over `SInt` never panic.
C36–C42 (protocols): per-party round functions; honest runs as functions over the whole party set; adversarial statements quantify over
arbitrary messages of the others.
C43, C44 (MtA, signatures): integer no-wrap bound + `ZMod q`; low-s normalization over `ZMod q` representatives.
C45, C46 (evidence): for each error kind compare detection and evidence predicates. Known mismatches in `interactive_signing.rs`
become negations with witnesses.
C47 (no remote panic): negations for the known cases (even modulus, short random string, non-invertible ciphertext, one-term
polynomial), positive theorems for the guarded paths.
C48 (order independence): permutation-invariance of building the payload map.
C49 (entry points): decision logic stated outright.
C50 (XOF residues): negation for the range part, positive for invertibility.
C51, C52 (error rounds): integer bounds on sums; linear algebra over `F`.
C53 (what an accepted range proof means): special soundness of enc-elg, aff-g, aff-g* and dec over `ZMod (N^2)`; expected false, because commitments are not checked to be
invertible.
C54 (auxiliary info): honest run as a function of all draws; adversarial statement about one finishing party.

C55 (histories): the histories are inductive predicates built from the modelled operations and protocol runs (Spec/LifeCycle.lean); the sharing invariant is proved by mutual induction over them, and combined with C41 and C42.
C56 (self-contained evidence): the declared message parts as data, the checks reading optional parts; compare the verdict on any genuine package containing the declared
parts with the verdict on everything.
C57 (agreement): for signing, the accepted shares and the sums checked in round 3 give one linear equation for `s` in terms of the combined nonce point; for key generation
and auxiliary info, from the commitments of round 1 and a hash without collisions.
C58 (bytes of scalars and points): `Model/CurveBytes`; the `sec1` crate as a record of functions with laws (Spec/CurveBytes.lean); expected false for the identity, with the
consequences in the rounds that hash received points (`Model/PointHashing`).
C59 (scalars from hashes): byte strings of length `2n` are in bijection with the numbers below `2^(16n)`; count a residue class.
C60 (zero knowledge): explicit simulators (Spec/ZeroKnowledge.lean) that see the statement and the challenge only. Both sides are functions of finitely many uniform choices; a bijection between
most of the choices of prover and simulator with equal transcripts bounds the statistical distance. Random draws are assumed uniform and the hash is replaced by the given challenge.
C61 (no bias): the first round fixes the contributions of the others (C37, C38 and the truth of the elog statements), so the results of two runs differ by the difference of the honest draws;
counting the draws that lead to a given result gives the probability. That the others choose their first message independently of the honest one is a hypothesis (the commitment and the encryptions hide it).
C62 (same way after round 3): the way depends on sums of announced values only (Spec/SigningBranch.lean); true elog statements fix `Delta`. Expected false because `S` is not echoed; witness by a
run that is honest but for one point `S`.
C63 (no accusation between honest parties): two honest parties with arbitrary inboxes except for what the other one sent and echo agreement (Spec/Blame.lean). Every check on a message of the
peer is shown to succeed from completeness of the proofs (C22-C33) and agreement on the echoed values. Expected false in the error rounds of signing; witness by equivocating in round 2.
C64 (declarations): one table per protocol of what each round sends, decodes and lets third parties confirm (Model/Rounds.lean); decoding is arbitrary. Agreement of the tables gives the statement for
all contents. Expected false of resharing, where the confirmation is unimplemented, and of the siblings declared in signing.
C65 (hash inputs): the bytes fed to the hash for each of its uses (Model/HashStreams.lean), with arbitrary self-delimiting writers of single values, since the serializer is a dependency.
Self-delimitation is closed under pairs, sequences and maps; tags by computation. This reduces the absence of collisions assumed in C34 and of commitments to the hash function itself.
C66 (different messages): a signer with two messages and the same randomness is followed through all rounds (each step commutes with replacing the message); two honest signers with different messages and arbitrary other parties, the same echo broadcasts: the share equation of round 4 differs by the difference of the messages times the peer's part of the nonce.
C67 (checking evidence): the panics of the evidence models of all protocols are traced to the values in the presented messages. Expected false: the witnesses are even moduli, strings of different lengths and zero ciphertexts.
C68 (key generation): the search for primes is an argument constrained by a contract (`Spec/KeyGen`); the code around it is modelled and shown to give full size primes, ranges and honest draws. Expected false in one case: nothing compares the two primes.
C69 (secret shares stay secret in signing): statistical distance between the answers of `mtaSend` for two secrets, for requests in range. Expected false otherwise: with the forgery of C53 a signer can ask with an out-of-range request; to be shown by an explicit program for the dishonest signer (`Spec/KeyExtraction`) run against the model of the others.
C70 (commitments hide): statistical distance between the commitments to two values, for parameters with `s` a power of `t`. Expected false otherwise: by C32 any parameters are accepted; to be shown by explicit parameters (`Spec/TrapSetup`) and runs of the generation of auxiliary info and of signing with them.
C71 (nonce fixed by first messages): two answers to different challenges open the El Gamal commitment of round 1 (special soundness of `elog`, C26), an opening is unique, and every nonce point accepted in round 2 comes with such a proof; with the determination of the signature by the nonce points (C57) this fixes `r`. The exception is stated in `Spec/NonceFixed.lean` as proofs that could answer one challenge only (`Guessed`).

C72 (debug output): `Model/DebugOutput` maps every type that holds secrets to the tree its derived `Debug` prints, with the printers of elementary types as parameters; the property is that the tree depends on the public part only. False of sessions that hold the expanded Paillier key: its Montgomery parameters modulo the primes are not wrapped in `Secret`.

C73 (integer sizes): `Model/Limbs` follows the copying of limbs and bytes in `uint/traits.rs`, with a failed `copy_from_slice` as a panic; the statements compare values only. The bit-level model takes these operations as value-preserving, which is what is proved here.

C74 (soundness of the small-factor proof): no new model. From two accepted transcripts the equations give `s^(Δz₁Δz₂ - N₀Δe²) = t^(..)`; if the exponent is zero the range checks and unique factorization bound the factors. For honest parameters C68 gives the order of `t`.
C75 (derivation paths): the derivation of C17. Composition holds with the chain code carried on, by induction on the first path; it is false as coded, and a derived share minus the tweaks is the parent's share.
C76 (shares from different periods): the draws of all dealings and refreshes as one uniform family; shifting a few draws along the unseen parties turns one key into another without changing what is seen, which bounds the statistical distance. Linked to the code by theorems saying that the shares, changes and subshares of honest runs are those of the experiment. Only the secret scalars are considered seen: the points that are published with them determine the key, and hide it only computationally.
C77 (storage): `Model/Stored` writes the stored types field by field as byte strings and entry lists, on top of the encodings of C58; the serialization format and party ids are outside. Round trips by induction over the entries. Expected false for identity points (C58) and for damaged data, since reading calls no constructor; the negations are proved.
C78 (damaged or outdated key material): the runs of C41 with other secrets `x i` in the shares; the multiplication proof of such a party is replayed with the published point in the hash, so that only the check on the curve decides. Outdated data: any number of versions of shares and auxiliary info, each valid by itself, one per party; the inputs of the hashes (`Spec.encInput`) differ, and that the hashes differ is a hypothesis about these inputs only.
C79 (running time): `Model/Timing` repeats the functions on secret numbers with their steps written down (`Timed`): calls of library functions with the sizes of the operands, the operands of functions declared variable-time, and branches. `C79_results` ties them to the other models. Equal steps are proved by a relation between two runs that is kept by sequencing, and for arbitrary programs of operations by induction over the program. Expected false where a secret reaches a `_vartime` function or an `if`; there the theorem says exactly which function of the secret the steps tell. Trusted: functions without `_vartime` in their name take time depending on sizes only.
C80 (every schedule): `Spec/Network` defines concurrent executions: each party is a machine (round, expected senders, messages sent, `receive_message`, `finalize`), steps deliver one message, end one round or crash one party. `Model/Machines` puts the modelled rounds of the five protocols into this form. If the rounds go as intended when everybody follows the protocol (`Ideal`, from the honest-run theorems), then by induction over the steps every party is on track, somebody can do a step, and a measure bounds the number of steps.
C81 (refinement): induction over the steps shows that what a party has done is a replay of its machine on the messages of its past rounds, and that messages from honest parties were sent by them in that round; the replay is then identified with the sequential `run` of the protocol. Agreement follows with C38, C57 from the hypothesis `EchoAgree`: the echo round of the session layer is not modelled as steps, only what it ensures.
C82 (rushing): the inbox of round 1 of a party that has sent a message of round 2 cannot change any more, and the commitments in it fix what its result is made of.
C83 (accusations over the network): when an honest party accuses an honest party in an execution, the rounds it has completed and the refused message are turned into a run on its own (`accusation`, by induction over the steps and the refinement of C81) that ends with the same accusation; then C63 applies. For signing the execution that leads to a wrong accusation is constructed step by step (`Script`, `exists_three`, `Reachable.refuse`).
C84 (waiting in different rounds): the broadcasts that all honest parties of an execution have seen are put together (`exists_common`), so that C62 applies to any two of them. For the negation the split of C62 is made into an execution, and an invariant (`Waiting`: everybody misses a message of an honest party that has never begun this round) is shown to hold in all continuations.
C85 (panics over the network): executions with a restriction on the messages of the parties that are not honest (`ReachableWith`). A party that panics in one does so with the messages it has received, so that the known conditions of C47 apply; the messages of honest parties are shown to be harmless. For the negations the panics of C47 are made into executions.
C86 (evidence over the network): the messages of the machines are split into the separately signed parts (`Model/MessageParts.lean`); `Spec/NetworkEvidence.lean` says what an honest party can present when it refuses a message and what evidence consists of parts that a party signed. The accused is shown to be convicted by what is presented (with C45 and C56), and evidence made of what an honest party signed is compared with that party's transcript (with C46).
C87 (evidence over the network, signing): as C86, for the machine of signing; true for the errors of round 2 (except the second multiplication proof) and of round 4, and for the sets of ids in the error rounds. For the others the framing of C46 is carried over: in every execution that gets to round 3 there is, up to exceptional challenges, evidence against every honest party made only of what that party signed (`C87_signing_elog_framed`), and two honest parties with different public shares can each be convicted by round 2 (`C87_signing_hat_framed`).
C88 (life of a key with adversaries): histories as mutually inductive predicates `KeepsFull`, `KeepsThreshold` (`Spec/LifeNetwork`) whose steps are executions of the machines with any set of honest parties; the invariant (`FullView`, `ThresholdView`: the honest holders' public data agree and lie on one polynomial with the key as its constant coefficient) is kept by every operation; resharing needs messages of the right form, which is shown to be needed (`C88_longer_polynomials`, `C88_shared_ids`).
C89 (wiping): `Model/SecretBox`: the wrapper `Secret` with a memory of cells, one for each box and each local variable that holds a secret by value; dropping a box wipes its cell. `Spec/SecretBox`: what each operation does to plain values. Every operation refines its specification and wipes what it gives up, by a small program logic (`Does`), then induction over sequences. False for `neg` and `to_montgomery`.
C90 (wire): `Model/Wire`: all messages as trees of `serde`'s data model (structures as lists of fields, scalars, points and integers as byte strings). `Spec/Wire`: which parts are values of their types, and the states of an honest party. Round trip and soundness of every encoding by composition; that honest parties' messages are values of their types by induction over the rounds. False for messages with an identity point.
C91 (executions over the wire): `Model/WireNet`: the machines of the protocols over packets of three optional serialized parts; unreadable packets are blamed on the sender, and a party that cannot serialize what it sends panics. Where hashing an identity point panics is a parameter. `Spec/WireNet`: when two executions have the same course. Refinement (forward simulation over the steps of an execution), then C81 and C83 are carried over; termination from the ideal executions of C80. Termination of key generation is false if a party draws zero.
C92 (finishing over the wire): `Spec/WireFinish`: messages without identity points, and executions in which only such are sent. A message can be serialized exactly if it has no identity point (C90); with this the ideal execution of C80 is carried over to packets, and conversely whoever finishes has serialized all it had to send.
C93 (identity points that are hashed): `Model/HashPoints` lists the points hashed in each round, to make messages and on receipt. The decoders reach every value of their types (`Lemmas/WireOnto`), hence also messages with identity points. An invariant (no identity among what a party keeps) is carried along the ideal execution; conversely whoever finishes has hashed no identity.
C94 (panics over the wire): a simulation by an execution over messages without identity points (`Lemmas/WireQuiet`), in which nobody panics because of serialization or hashing; then C85. For the rounds of signing about a failure an invariant over all states of signing (`Lemmas/SigningQuiet`); what the honest parties have to send in it is a hypothesis (`Machine.ComesTo`), as its points depend on everybody's draws.
C95 (random strings and bit challenges): `Model/BitDraws`. Byte strings and strings of 8n bits are in bijection (packing is the inverse), so the preimages of a string are counted by its continuations; the joint string is a bijection of each contribution by induction over the others.
C96 (results over the wire): no new model; `Spec/WireResults` says what is checked of another party's public data. Executions over serialized messages have the course of executions of the protocol (C91), in which the finishing party's result is that of a run on the messages it has received (C81); the theorems about single runs (C37, C54, C38, C40, C42) and the messages of honest senders give the rest. For the fixed signature the two executions are compared with C71. Whether resharing hands over the expected key is the subject of C40.
C97 (zero draws in signing): no new model; `Spec/SigningZero` lists the scalars of one signer in terms of the draws and the key. C93 reduces finishing to the messages of the intended execution; `Lemmas/SigningZero` computes every point in them as a multiple of the generator, or of the sum of the parties' `gamma` times the generator, and a multiple of a nonzero point by a nonzero scalar is nonzero.
C98 (evidence over the wire): `Model/WireEvidence` models `verify_messages_constitute_error` on serialized parts: what is needed is deserialized, the check of `Model/Evidence` is repeated, and the points that are hashed for this make it panic if one of them is the identity. `Lemmas/WireEvidence` shows that reading the presented data gives what would be presented in the execution over messages that corresponds to it (C91), so C86 applies; that nothing panics follows because the party that refused the message has hashed the same points. Signing is in C101.
C99 (life cycle over the wire): `Spec/LifeWire` says what a history with sessions over serialized messages and with stored shares is. `Lemmas/LifeWire` shows that every such session corresponds to one of C88 (by C91) and that reading back gives what was stored (C77), so the views of C88 go through; signing uses C96 and C91.
C100 (auxiliary info over the wire): `Spec/AuxWire` says where auxiliary info comes from and what the honest parties have in common. `Lemmas/AuxWire` gets it from what a finishing party knows (C54, C38) and from the fact that read messages are values of their types (C91), and carries it through storage (C77) and restriction (C18); signing then uses C99 without its assumptions about auxiliary info.
C101 (evidence of signing over the wire): as C98. `Model/WireEvidence` checks serialized evidence, with the points that are hashed (an identity among them is a panic). `Lemmas/WireEvidenceSigning` translates what is presented and what is signed to executions without serialization; there C87 applies. The round numbers need care: the error rounds 5 and 6 both follow round 3, and evidence about them refers only to rounds up to 3. The framing of C87 is carried over the wire as well (`Lemmas/WireFraming`, `Props/WireFraming`): what a party that has finished has signed can be presented in serialized form, and the points that are hashed to check it are points that the party or the receiver hashed without a panic.
C102 (end to end): composition of C93 (sessions over serialized messages finish), C91, C92, C13, C15, C18 and C97. `Spec/EndToEnd` says what signing needs to be drawn and what "they can sign" means. New in the proof: what generated auxiliary info has to satisfy to fit the messages of signing; that after a refresh shares are what C76 says, and after a conversion are zero only if the threshold shares were (`Lemmas/EndToEnd`), so that the condition for signing to finish (C97) is a condition on what was drawn.
C103 (bounded secrets in memory): `Model/SecretBounded`: the functions of `SecretUnsigned` and `SecretSigned` on the memory of `Model/SecretBox`. `Spec/SecretBounded`: what each operation means, in terms of the values of `Model/Signed`, and which operations may be called. Every operation refines its meaning and wipes what it gives up, with the program logic of C89, then induction over sequences. False for `&`, for `new_modulo` and for the checks of an exponent range; a second small logic (`Leaves`) shows what these leave, in every state.
C104 (Paillier keys in memory): `Model/SecretKeys`: `SecretKeyPaillier::new` with all it calls, dropping a key, encryption, decryption and randomizers on the memory of `Model/SecretBox`. A program logic (`Ex` in `Lemmas/SecretKeys`) tracks the list of what is in use and the list of what was given up without being wiped; one symbolic execution per function then shows the values, compared to `Model/Paillier`, and exactly what is left. That nothing is left is true of `derive_randomizer` only; for the others the theorems say what is left, in every case. The results of panicking functions are not followed.
C105 (remainders in memory): `Model/SecretRns`: `rns_split`, `rns_sqrt` and `rns_join` on the memory of `Model/SecretBox`, with a key as made in C104; the same program logic. The values are compared to `Model/Paillier`, and the theorems say exactly what is left. That nothing about the primes is left is false; what is left gives the factors as a greatest common divisor.
C106 (scalars in memory): `Model/SecretScalar`: the encoding of scalars, which C89 takes as a parameter, with the copies it makes, and the serialization and conversions of secret scalars that use it; the same program logic. The values are compared to `Model/Conversion`, and the theorems say exactly what is left. That nothing is left is false for all of them.
C107 (splitting in memory): `Model/SecretSharing`: additive splitting, Shamir splitting and joining, dealing, updating and converting key shares, and the new shares of resharing and refresh, on the memory of `Model/SecretBox`; the same program logic, with memory up to the order of its cells and induction over the lists of parts, coefficients, IDs and shares. The values are shown to be those of `Model/Shamir`. Nothing is left.

## What is modelled

| source | model |
|---|---|
| `uint/*.rs` | `Model/Signed` (bit level), `Model/SInt` (integers with a bound), `Model/Limbs` (changes of size), `Model/Encoding`: arithmetic, constructors, sampling, encodings |
| `tools/bitvec.rs`, `tools/hashing.rs`, `tools/sss.rs` | `Model/Encoding`, `Model/HashStreams`, `Model/Shamir` |
| `curve/*.rs` | `Model/CurveBytes` (bytes of scalars and points, scalars from hashes), `Model/Stored` (stored shares and auxiliary info), `Model/Ecdsa`, `Model/Entities`: scalars and points abstractly; ECDSA assembly, BIP-32 derivation with the tweak as a parameter |
| `params/*.rs` | `Model/Params`: the numbers and the self-consistency check; `Model/Conversion` for `params/conversion.rs` |
| `paillier/*.rs` | `Model/Paillier`: keys, encryption, CRT, ring-Pedersen; `Model/KeyGen`: key generation around the prime search, which is outside and enters as a contract (`Spec/KeyGen`) |
| `zk/*.rs` | `Model/ZkCurve`, `Model/ZkPaillier`, `Model/ZkModulus`: prover and verifier of all nine proofs |
| `entities/*.rs` | all public functions |
| steps (running time) of `uint/secret_*.rs`, `paillier/*.rs`, `params/conversion.rs` | `Model/Timing`: calls, branches and variable-time operands; not the compiled code, the libraries, allocation or caches |
| `derive(Debug)`, `Debug for Secret` | `Model/DebugOutput` |
| derived `Serialize` and `Deserialize` of all messages | `Model/Wire` |
| deserialization in `receive_message` of all rounds, serialization of what rounds send | `Model/WireNet` |
| deserialization in `verify_messages_constitute_error` of key generation, auxiliary info generation, key refresh and signing; `deserialize_all` in `tools/protocol_shortcuts.rs` | `Model/WireEvidence` |
| `tools/secret.rs` | `Model/SecretBox`: every operation with the memory it uses; not copies made by the compiler or inside the libraries |
| `uint/secret_signed.rs`, `uint/secret_unsigned.rs`, memory | `Model/SecretBounded`: every operation with the memory it uses, except `to_public` (whose result is not secret) and `to_montgomery`; not what the arithmetic of the integers uses |
| `paillier/rsa.rs`, `paillier/keys.rs`, `paillier/encryption.rs`, memory | `Model/SecretKeys`: making and dropping keys, encryption, decryption, making and deriving randomizers; `Model/SecretRns`: `rns_split`, `rns_sqrt`, `rns_join`; not the sampling, unwinding after panics, nor the parameters inside Montgomery forms |
| `curve/arithmetic.rs` (encoding of scalars), `params/conversion.rs`, memory | `Model/SecretScalar`: bytes are the number they denote; the right number of bytes is given; not the library, the bytes of single limbs, nor unwinding after panics |
| `curve/arithmetic.rs` (`secret_split`), `tools/sss.rs`, `entities/full.rs` (`KeyShare::new_centralized`, `update`), `entities/threshold.rs` (`new_centralized`, `to_key_share`, `from_key_share`), `protocols/key_resharing.rs:432-443`, `protocols/key_refresh.rs:1045`, memory | `Model/SecretSharing`: a scalar is its residue; the caller's signing key, share IDs and interpolation coefficients are not in the modelled memory; an update is modelled when its checks succeed; the IDs of a split are distinct, as the keys of a map are; not the library's in-place arithmetic, nor unwinding after panics |
| `protocols/*.rs` | `Model/KeyInit`, `KeyRefresh`, `KeyResharing`, `AuxGen`, `Signing`, `SigningEvidence`, `Required`, `Rounds`, `Session`: `start`, every `receive_message` and `finalize`, every `required_messages` and `verify_messages_constitute_error` |
| the protocols in the form the session layer drives | `Model/Machines`, `Spec/Network`: concurrent executions; of the session layer: a message is accepted once per sender and round, those of later rounds wait, those that are not of the current round are refused, an honest party's messages cannot be forged; what the echo round ensures is a hypothesis (`EchoAgree`) |

Not modelled: the format below `serde`'s data model (names of fields, hex, base64), the inside of the session layer, `tools/boxed_rng.rs`, benches, tests.
Every definition cites its source lines.

## What turned out to be false of the code

Each item is a theorem: the negation of the property with a concrete run or value as witness. The part that does hold is in the theorem with suffix `_partial`.

**Integers, encodings, sharing**

* A key share with the identity among its public shares cannot be stored (`C77_identity_share_panics`); `new_centralized` can deal such a share, because only the drawn parts are kept away from zero (example
  in `Props/Stored.lean`). Deserialized key shares and auxiliary info are not validated: a secret that does not belong to the public shares, a foreign owner, public shares that add up to the identity
  (`C77_inconsistent_loads`), equal or zero primes (`C77_bad_primes_load`) are all loaded, and the last three of these panic when they are used.
* The steps of some operations depend on secrets. Decryption calls `bits_vartime` (in `try_from_wide`, `uint/traits.rs:158`) on `φ(N)·m mod N`, so that its steps tell the bit length of this number (`C79_decrypt_steps`), in particular
  whether the plaintext is zero (`C79_decrypt_tells_zero`) and, for small negative plaintexts, their size (`C79_decrypt_tells_size`). `secret_scalar_from_wide_uint` passes the secret to `from_repr_vartime` (`C79_scalar_conversion_steps`; the
  default implementation of that function in `ff` is constant-time, but it need not be). `sqrt_part` branches on whether a number is a square modulo each prime (`C79_square_root_steps`), and `SecretKeyPaillier::new` calls `new_params_vartime` with the
  secret primes (`C79_key_load_steps`).
* Nothing is compared when signing starts: a share whose secret does not belong to its public share starts (`C78_damaged_share_starts`), and it is the others who blame its holder. A party with an outdated share in turn blames parties that did nothing wrong (`C78_outdated_noticed`, example).
* `SecretSigned::new_positive` ignores the declared bound (`uint/secret_signed.rs:36-45`): `C02_new_positive_bound_untruthful`.
* Two different byte strings decode to the same signed integer, or to the same bit vector: `C05_signed_encoding_not_canonical`, `C06_bitvec_encoding_not_canonical`.
* Fewer than threshold shares do exclude some secrets, since coefficients are drawn non-zero: `C10_not_perfectly_hiding`. What they reveal is at most `(t-1)/(q-1)` in statistical distance: `C10_statistically_hiding_partial`.
* A zero key may be drawn in `new_centralized`; the verifying key then panics: `C12_zero_key_panics`. Threshold 0 is accepted: `C13_zero_threshold_unusable`.
* Key derivation fails for all holders if one public share, plus the tweaks so far, is zero, although the child key itself exists: `C17_succeeds_iff`.
* Deriving in two steps does not give the key of the joined path, because every derivation starts from a chain code computed from the public key (`curve/bip32.rs:65-75`): `C75_composition_needs_coincidence`, `C75_does_not_compose`.
* All tweaks follow from the public key, so a derived share reveals the parent's share and that of every other path (the code's own question, TODO #134): `C75_child_reveals_parent`.

**Paillier and proofs**

* Equal primes make key generation panic: `C19_equal_primes_panic`. Ciphertexts that are not invertible make multiplication and negation panic: `C20_non_unit_panics`.
* The documented range of residues derived from the hash is exceeded: `C50_residue_can_exceed_modulus`.
* The empty `prm` and `mod` proofs are accepted (lists are zipped, their lengths not compared, `zk/prm.rs:113-119`), and so are ring-Pedersen bases `s = t = 0`:
  `C32_empty_proof_accepted`, `C32_not_every_bit_answered`, `C32_zero_bases_accepted`, `C33_empty_proof_accepted`, `C33_not_every_challenge_answered`.
  **Consequence: one dishonest party reads the Paillier primes of all the others when auxiliary info is generated, and their key shares and nonce shares when they sign.** It publishes the parameters
  `m²`, `t = 1`, `s = 1 + m` with an empty `prm` proof; nothing else is checked but the size and parity of the modulus (`protocols/aux_gen.rs:541-566`). A commitment to `x` is then `1 + m x`. The commitments in the
  `fac` proofs of round 3 show the primes, those in the `enc-elg` and `aff-g` proofs of signing show the nonce shares and key shares: `C70_primes_revealed`, `C70_refresh_primes_revealed`, `C70_key_revealed`. With honest parameters the
  commitments do hide: `C70_commitment_hides_partial`.
* `dec` with one party panics; the number of parties is not hashed: `C30_single_party_panics`, `C34_dec_parties_not_bound`.
* The self-consistency check is one bit too weak for `fac`: `C35_fac_edge_panics`, `C35_edge_is_consistent`.
* Range proofs can be forged for arbitrary ciphertexts by sending a zero commitment and a zero masked randomizer: `C53_*_forgery`, `C53_*_not_binding`.
  **Consequence: one dishonest signer gets the whole key from a single signing session.** It encrypts `2^LP` instead of its nonce share, forges the range proof (`zk/enc_elg.rs:164-169` with `cap_d = 0`,
  `z2 = 0`), and the answers it gets in round 2 are the shares of the others shifted by `LP` bits, with the mask only below: `C69_key_revealed`. For requests in range the answers do hide the shares, up to
  `2^-L`: `C69_answer_hides_partial`.
* The range of the masked randomizer in `dec` is wider than the Paillier modulus in every self-consistent parameter set (`zk/dec.rs:100-105`, `253-263`), so every value can be
  proved: `C52_dec_accepts_wrapped`, `C52_dec_proves_any_value`. Consequence: a party that announces a wrong share in round 3 of signing is never found: `C52_cheater_not_found`.
* In the error rounds of signing a party skips the `aff-g*` proofs that were made for itself (`protocols/interactive_signing.rs:2264-2266`, `2509-2511`). Whatever they contain, its run ends in the same way; with two
  signers no `aff-g*` proof is checked at all: `C52_own_star_unchecked`.

* `Neg for &Secret` and `Secret::to_montgomery` (`tools/secret.rs:101-103`, `422-427`) hand a clone of the secret to the wrapped type by value, and nobody wipes it (for the second the code says so in a comment):
  `C89_neg_leaves_copy`, `C89_montgomery_leaves_copy`. By reading, the same holds for `to_montgomery` of `SecretUnsigned` (`uint/secret_unsigned.rs:77`).
* `&` of `SecretUnsigned` (`uint/secret_unsigned.rs:66`) clones the secret and gives the clone away by value, and it is what `assert_exponent_range` and `ensure_exponent_range` use (`uint/secret_signed.rs:142-185`). The provers of the ZK proofs call the former on their witnesses (such as `zk/aff_g.rs:77-78`), so that the absolute values of these stay in memory that was given up: `C103_range_check_leaves_copy`, `C103_traces`.
* `SecretSigned::new_modulo` (`uint/secret_signed.rs:137`) computes the modulus minus the secret in a temporary that is not zeroized. It is used for decrypted values and for secret scalars (`params/conversion.rs:148`, `paillier/encryption.rs:233`): `C103_new_modulo_leaves_difference`.
* `SecretPrimes::new` (`paillier/rsa.rs:124-133`) has `p - 1` and `q - 1` in variables that are not zeroized, so that the factorization of the modulus stays in memory that was given up, for every key that is precomputed. `SecretKeyPaillier::new` also leaves the totient (`paillier/keys.rs:85-88`), `p` (`107`) and the constant for sampling non-squares (`143`), and the parameters modulo `p` and `q` are not zeroized when the key is dropped (the latter is noted in the code): `C104_factors_left`, `C104_key`, `C104_lifetime_partial`.
* Encrypting leaves the absolute value of the plaintext and the randomizer (`paillier/encryption.rs:114`, `124-126`); decrypting leaves the modulus minus the plaintext: `C104_encrypt`, `C104_decrypt`.
* `rns_join` (`paillier/keys.rs:247-262`) computes a multiple of `p` below the modulus in memory that is not zeroized; its greatest common divisor with the public modulus is `p`. `rns_split` (`193-206`) leaves the remainder modulo `p`; the number less this remainder, and the public modulus, have the greatest common divisor `p`. The numbers that are split and joined are published in proofs that the modulus is well-formed: `C105_join_reveals_factors`, `C105_split_reveals_factors`.
* Encoding a scalar makes a copy of it and an array of its bytes that are not zeroized (`curve/arithmetic.rs:209-211`), and decoding makes such an array as well (`136-143`). So serializing, deserializing or converting any secret scalar leaves it, or its absolute value, in memory, although the boxes around the encoding are zeroized (`tools/secret.rs:71`, `params/conversion.rs:107`, `126`): `C106_scalar_left`. C89, where the encoding is a parameter, does not see this.

* A message with an identity point anywhere cannot be serialized, the `expect` in `Point::to_compressed_array` (`curve/arithmetic.rs:300-307`) fails: `C90_identity_not_sent`.

* A party whose secret share or Schnorr secret in key generation is zero (`Scalar::random` may return it, `key_init.rs:261`) panics on sending round 2 and never finishes: `C91_key_init_zero`.

* An old holder whose threshold share is zero panics when it hands over the key (its public polynomial begins with an identity point): `C92_resharing_zero_share`. In the other protocols likewise whoever has to send an identity point: `C92_key_refresh_stuck`, `C92_signing_stuck`.

* A dishonest party can make honest ones panic, without being blamed, with a message that contains an identity point, which decodes but cannot be hashed: `C93_key_init_crash`, `C93_key_refresh_crash`, `C93_signing_crash`; in signing with its first packet: `C93_signing_crash_at_once`.
* The only holder of a key cannot refresh it: its one share change is zero, and hashing it panics (`C93_key_refresh_stuck`).
* If signing fails after round 3, the proofs about the failure hash `delta_j` times the generator (`interactive_signing.rs:2244-2254`). A dishonest party that sent `delta = 0` therefore makes honest parties panic with any readable error message, instead of being blamed: `C94_signing_delta`.
* A check of evidence panics, instead of rejecting it, if the evidence contains an identity point that has to be hashed (`C98_check_crash`): whoever can sign messages can make evidence that crashes everyone to whom it is presented.

**Protocols**

* Key resharing does not compare the new threshold with the number of new holders. If it is larger, the honest protocol finishes without an error, but all new shares together do not determine the
  key any more, and without debug assertions they are converted to shares of another key: `C39_threshold_too_large`. `NewHolder::old_threshold` is not used at all; too few old holders lead to a panic
  of the new ones: `C39_too_few_old_holders`.
* Key resharing with new threshold 0 or 1 panics; a longer polynomial or a repeated share id of a peer changes threshold or key: `C39_threshold_one_panics`,
  `C40_degree_not_enforced`, `C40_duplicate_share_ids`, in histories `C88_longer_polynomials`, `C88_shared_ids`. Foreign inputs are accepted: `C49_resharing_foreign_inputs`, `C49_resharing_unlisted_old_holder`.
* Evidence for a failed aff-g* proof of round 6 reads a message that is not declared as required: `C56_signing_round6_undeclared`.
* Evidence. Resharing: not implemented (`C45_resharing_unverifiable`). Signing: round 1 evidence is checked with the ring-Pedersen parameters of the accused instead of the
  verifier's (`C45_signing_round1_undetected`, `C46_signing_round1_framing`); the second multiplication proof with the public share of the target instead of the sender's
  (`C46_signing_hat_framing`, in executions `C87_signing_hat_framed`, with serialized messages and after a session in which everyone has finished `C101_signing_hat_framed`); the proof of round 3 with the sender's `Γ` share instead of the combined one (`C45_signing_elog_undetected`, `C46_signing_elog_framing`, in executions `C87_signing_elog_framed`, with serialized messages and after a successful session `C101_signing_elog_framed`); the
  decryption proof of the error round with `Δ` instead of `δ·G` (`C46_signing_dec_framing`); several errors of the error rounds have no evidence at all, or the check panics
  (`C45_signing_no_evidence`, `C45_signing_star_panics`). Missing second multiplication proofs are attributed to nobody (`C45_signing_hat_ids_unattributed`).
* In round 3 of signing the point `S` is sent in the ordinary broadcast, so it is not echoed, and it comes without a proof. By sending a wrong one to some of the others a single signer sends these
  to an error round while the rest waits in round 4 for their signature shares; no message is rejected, nobody is blamed and nobody finishes: `C62_signers_split`. As an execution from which no continuation lets any honest signer complete another round: `C84_signers_stuck`.
* The MtA ciphertexts `D` and `hatD` of round 2 of signing are sent in the ordinary broadcast. A signer that sends different ones to different peers, each with valid proofs, makes an honest
  signer reject the decryption proof of another honest signer in the error round and accuse it: `C63_honest_signer_blamed`. Up to round 4 and in the other protocols this cannot happen:
  `C63_signing_partial`, `C63_key_init`, `C63_resharing`, `C63_aux_gen`, `C63_key_refresh`. The same as an execution over the network with working echo broadcasts: `C83_honest_signer_blamed`.
  The decryption proof is the only thing an honest signer can complain about in what another one sends in an error round: `C63_signing_error_round_partial`, `C83_signing_error_round_partial`.
* Evidence about an undecodable or superfluous message part panics in resharing (`C64_resharing_parts`). In signing, round 4 declares the rounds 5 and 6 as siblings (other parties may be in them at
  the same time) but not the other way round: `C64_siblings_not_mutual`.
* In key refresh, evidence about a share change relies on the session layer to bind the addressee: `C46_refresh_needs_addressee`.
* A single peer can make others panic. Key generation: random string of the wrong length. Auxiliary info and key refresh: the same, an even modulus, zero ring-Pedersen bases, a zero
  commitment in `fac`. Resharing: a polynomial with one coefficient, or a consistent one with a
  constant term that moves the key (`C47_resharing_wrong_key_panic`: nobody is blamed). Signing: ciphertext `K = 0` in round 1, `F = 0` in round 2. `C47_*_remote_panic`,
  `C47_aux_gen_zero_commitment`, `C47_signing_zero_ciphertext`, `C47_signing_zero_mask`. In executions with honest other parties: `C85_*_panic`.

* The identity point is accepted from the wire but cannot be serialized or hashed: `to_compressed_array` expects 33 bytes and gets one (`curve/arithmetic.rs:282-288`). A peer that sends it crashes the
  receivers (`C58_identity_not_encodable`, `C58_key_init_identity_panics`, `C58_refresh_identity_panics`, `C58_signing_identity_panics`), and key refresh with a single party always panics
  (`C58_refresh_alone_panics`). The protocol models take digests as functions of points and leave this panic out; `C58_key_init_bytes`, `C58_refresh_agrees` and `C58_signing_agrees` show that they are
  exact otherwise. `try_from_compressed_bytes` also accepts uncompressed points (`C58_point_encoding_not_canonical`).
* Nothing binds the signers to a common message before they send their signature shares: the message is not part of the signing session id (`Epid::new`) nor of any earlier message. Two honest
  signers that were told different messages blame each other for an invalid signature share, and the evidence is accepted by whoever was told another message than the accused:
  `C66_evidence_depends_on_message`.
* Whoever checks evidence can be crashed by it. Evidence made of signed messages with an even modulus or random strings of different lengths panics in key generation, auxiliary info generation and
  refresh (`C67_key_init_partial`, `C67_aux_gen_panics`, `C67_refresh_panics`); one with a zero ciphertext panics in signing (`C67_signing_panics`), as does every complete evidence for
  `R5AffGStarFailed` between parties with different moduli (`C45_signing_star_panics`); in resharing every check panics (`C67_resharing_panics`).
* The two primes of a Paillier key are not compared. If the search returned the same one twice (negligible with a good generator, certain with a stuck one) making the key panics:
  `C68_equal_primes_panic`.
* The expanded Paillier key keeps the Montgomery parameters modulo its primes outside of `Secret` (`paillier/keys.rs:62-66`). Printing a session of signing, auxiliary info generation or key refresh
  for debugging, in any round, therefore shows the primes, while the stored objects hide them: `C72_signing_shows_primes`, `C72_aux_gen_shows_primes`, `C72_key_refresh_shows_primes`. That printed
  Montgomery parameters show their modulus is an assumption about `crypto-bigint`, stated as `Spec.ParamsShown`.

**Observations without a theorem**

* The hash domain tag `b"KeyInit"` is shared by key generation, auxiliary info generation and key refresh, so their commitments are told apart only by the form of the data (C65).
