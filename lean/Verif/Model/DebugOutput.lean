import Verif.Model.Signing
import Verif.Model.KeyInit
import Verif.Model.KeyResharing
import Verif.Model.KeyRefresh

/-!
# What is printed for debugging (`Debug`)

Every type here derives `Debug`, except `Secret`, which has its own implementation. The output is modelled as a tree: its leaves are
what the printers of the elementary types produce, given by `Printers`. `V` is the type of these printed values.
-/

namespace Synedrion

/-- What `Debug` prints: the output of `Secret`, an elementary value, a sequence, or a structure with named fields (fields of tuple
structures are named by their position, entries of maps are structures with the fields `key` and `value`). -/
inductive Dbg (V : Type) where
  | hidden (type : String)
  | leaf (v : V)
  | list (items : List (Dbg V))
  | node (name : String) (fields : List (String × Dbg V))

/-- How the elementary types are printed. `params` prints Montgomery parameters (`crypto-bigint`), given by their modulus. -/
structure Printers (I F G S V : Type) where
  id : I → V
  scalar : F → V
  point : G → V
  session : S → V
  nat : Nat → V
  bits : List Bool → V
  params : Nat → V

namespace Debug

variable {I F G S V : Type} [LinearOrder I]

/-- `Debug for Secret`, src/tools/secret.rs:87-94: the type of the value, not the value -/
def secret {α : Type} (type : String) (_value : α) : Dbg V := .hidden type

/-- A map (`BTreeMap`, `SerializableMap`) -/
def map {α : Type} (pr : Printers I F G S V) (f : α → Dbg V) (m : BMap I α) : Dbg V :=
  .list (m.entries.map fun e => .node "" [("key", .leaf (pr.id e.1)), ("value", f e.2)])

/-- A set of party ids -/
def idSet (pr : Printers I F G S V) (s : Finset I) : Dbg V := .list ((bsetIter s).map fun i => .leaf (pr.id i))

/-- `Option` -/
def opt {α : Type} (f : α → Dbg V) : Option α → Dbg V
  | none => .node "None" []
  | some a => .node "Some" [("0", f a)]

/-! ### Results of protocols -/

/-- `KeyShare`, src/entities/full.rs:22-33 and `PublicKeyShares`, 35-37 -/
def keyShare (pr : Printers I F G S V) (k : KeyShare I F G) : Dbg V :=
  .node "KeyShare" [("owner", .leaf (pr.id k.owner)), ("secret", secret "Scalar" k.secret),
    ("public", .node "PublicKeyShares" [("0", map pr (fun x => .leaf (pr.point x)) k.pub)])]

/-- `KeyShareChange`, src/entities/full.rs:103-116 -/
def keyShareChange (pr : Printers I F G S V) (k : KeyShareChange I F G) : Dbg V :=
  .node "KeyShareChange" [("owner", .leaf (pr.id k.owner)), ("secret_share_change", secret "Scalar" k.secretShareChange),
    ("public_share_changes", map pr (fun x => .leaf (pr.point x)) k.publicShareChanges)]

/-- `ThresholdKeyShare`, src/entities/threshold.rs:29-43 -/
def thresholdKeyShare (pr : Printers I F G S V) (k : ThresholdKeyShare I F G) : Dbg V :=
  .node "ThresholdKeyShare" [("owner", .leaf (pr.id k.owner)), ("threshold", .leaf (pr.nat k.threshold)),
    ("secret_share", secret "Scalar" k.secretShare), ("share_ids", map pr (fun x => .leaf (pr.scalar x)) k.shareIds),
    ("public_shares", map pr (fun x => .leaf (pr.point x)) k.publicShares)]

/-- `SecretPrimesWire`, src/paillier/rsa.rs:47-51 -/
def primesWire (p q : Nat) : Dbg V := .node "SecretPrimesWire" [("p", secret "HalfUint" p), ("q", secret "HalfUint" q)]

/-- `RPParamsWire`, src/paillier/ring_pedersen.rs:160-171 -/
def rpWire (pr : Printers I F G S V) (rp : RPParamsWire) : Dbg V :=
  .node "RPParamsWire" [("modulus", .leaf (pr.nat rp.modulus)), ("base_randomizer", .leaf (pr.nat rp.baseRandomizer)),
    ("base_value", .leaf (pr.nat rp.baseValue))]

/-- `AuxInfo`, src/entities/full.rs:39-75 and `SecretKeyPaillierWire`, src/paillier/keys.rs:21-25. The stored form holds nothing but the primes. -/
def auxInfo (pr : Printers I F G S V) (a : AuxInfo I PaillierKey PublicAux) : Dbg V :=
  .node "AuxInfo" [("owner", .leaf (pr.id a.owner)),
    ("secret", .node "SecretAuxInfo" [("paillier_sk", .node "SecretKeyPaillierWire" [("primes", primesWire a.secret.p a.secret.q)])]),
    ("public", .node "PublicAuxInfos" [("0", map pr (fun x => .node "PublicAuxInfo"
      [("paillier_pk", .leaf (pr.nat x.pk)), ("rp_params", rpWire pr x.rp)]) a.pub)])]

/-- `InteractiveSigning`, src/protocols/interactive_signing.rs:917-927 -/
def interactiveSigning (pr : Printers I F G S V) (k : KeyShare I F G) (a : AuxInfo I PaillierKey PublicAux) (message : F) : Dbg V :=
  .node "InteractiveSigning" [("key_share", keyShare pr k), ("aux_info", auxInfo pr a), ("message", .leaf (pr.scalar message))]

/-! ### Key generation -/

/-- `Context`, src/protocols/key_init.rs:285-293, `PublicData`, 197-203 and `SchSecret`, src/zk/sch.rs:20-24 -/
def keyInitContext (pr : Printers I F G S V) (c : KeyInit.Context I F G S) : Dbg V :=
  .node "Context" [("other_ids", idSet pr c.otherIds), ("my_id", .leaf (pr.id c.myId)), ("x", secret "Scalar" c.x),
    ("tau", .node "SchSecret" [("0", secret "Scalar" c.tau)]),
    ("public_data", .node "PublicData" [("cap_x", .leaf (pr.point c.data.capX)), ("cap_a", .leaf (pr.point c.data.capA)),
      ("rho", .leaf (pr.bits c.data.rho)), ("u", .leaf (pr.bits c.data.u))]),
    ("sid", .leaf (pr.session c.sid))]

/-- `Round1`, src/protocols/key_init.rs:295-298 -/
def keyInitRound1 (pr : Printers I F G S V) (c : KeyInit.Context I F G S) : Dbg V := .node "Round1" [("context", keyInitContext pr c)]

/-- `Round2`, src/protocols/key_init.rs:363-367 -/
def keyInitRound2 {W : Type} (pr : Printers I F G S V) (hash : W → V) (r : KeyInit.Round2 I F G S W) : Dbg V :=
  .node "Round2" [("context", keyInitContext pr r.ctx), ("cap_vs", map pr (fun v => .leaf (hash v)) r.capVs)]

/-- `Round3`, src/protocols/key_init.rs:485-491 -/
def keyInitRound3 (pr : Printers I F G S V) (r : KeyInit.Round3 I F G S) : Dbg V :=
  .node "Round3" [("context", keyInitContext pr r.ctx), ("cap_xs", map pr (fun x => .leaf (pr.point x)) r.capXs),
    ("cap_as", map pr (fun x => .leaf (pr.point x)) r.capAs), ("rho_combined", .leaf (pr.bits r.rhoCombined))]

/-! ### Key resharing -/

/-- `NewHolder`, src/protocols/key_resharing.rs:111-119 -/
def newHolder (pr : Printers I F G S V) (n : KeyResharing.NewHolder I G) : Dbg V :=
  .node "NewHolder" [("verifying_key", .leaf (pr.point n.verifyingKey)), ("old_threshold", .leaf (pr.nat n.oldThreshold)),
    ("old_holders", idSet pr n.oldHolders)]

/-- `KeyResharing`, src/protocols/key_resharing.rs:121-132 and `OldHolder`, 103-108 -/
def keyResharing (pr : Printers I F G S V) (k : KeyResharing.Inputs I F G) : Dbg V :=
  .node "KeyResharing" [("old_holder", opt (fun s => .node "OldHolder" [("key_share", thresholdKeyShare pr s)]) k.oldHolder),
    ("new_holder", opt (newHolder pr) k.newHolder), ("new_holders", idSet pr k.newHolders), ("new_threshold", .leaf (pr.nat k.newThreshold))]

/-- `OldHolderData`, src/protocols/key_resharing.rs:242-247 and `Polynomial`, src/tools/sss.rs:53-54 -/
def oldHolderData (pr : Printers I F G S V) (o : KeyResharing.OldData F G) : Dbg V :=
  .node "OldHolderData" [("share_id", .leaf (pr.scalar o.shareId)),
    ("polynomial", .node "Polynomial" [("0", .list (o.polynomial.map (secret "Scalar")))]),
    ("public_polynomial", .node "PublicPolynomial" [("0", .list (o.publicPolynomial.map fun x => .leaf (pr.point x)))])]

/-- `Round1`, src/protocols/key_resharing.rs:254-265. `echo_round_participation` is not modelled. -/
def keyResharingRound1 (pr : Printers I F G S V) (r : KeyResharing.Round1 I F G) : Dbg V :=
  .node "Round1" [("old_holder", opt (oldHolderData pr) r.oldHolder),
    ("new_holder", opt (fun n => .node "NewHolderData" [("inputs", newHolder pr n)]) r.newHolder),
    ("new_share_ids", map pr (fun x => .leaf (pr.scalar x)) r.newShareIds), ("new_threshold", .leaf (pr.nat r.newThreshold)),
    ("my_id", .leaf (pr.id r.myId)), ("message_destinations", idSet pr r.messageDestinations),
    ("expecting_messages_from", idSet pr r.expectingMessagesFrom)]

/-! ### Sessions that hold the Paillier key -/

/-- `PublicModulus`, src/paillier/rsa.rs:246-252 -/
def publicModulus (pr : Printers I F G S V) (n : Nat) : Dbg V :=
  .node "PublicModulus" [("modulus", .leaf (pr.nat n)), ("monty_params_mod_n", .leaf (pr.params n))]

/-- `SecretKeyPaillier`, src/paillier/keys.rs:50-69, `SecretPrimes`, src/paillier/rsa.rs:112-118 and `SecretUnsigned`,
src/uint/secret_unsigned.rs:13-18. The fields `monty_params_mod_p` and `monty_params_mod_q` are not `Secret` (62-66). `bound`, a constant of the
parameters (keys.rs:103), is left out. -/
def paillierKey (pr : Printers I F G S V) (k : PaillierKey) : Dbg V :=
  .node "SecretKeyPaillier" [("primes", .node "SecretPrimes" [("primes", primesWire k.p k.q), ("totient", secret "Uint" k.sk.totient)]),
    ("inv_totient", secret "Monty" k.sk.invTotient),
    ("inv_modulus", .node "SecretUnsigned" [("value", secret "Uint" k.sk.invModulus)]),
    ("inv_p_mod_q", secret "Monty" k.sk.invPModQ),
    ("nonsquare_sampling_constant", secret "Monty" k.sk.nonsquareConstant),
    ("monty_params_mod_p", .leaf (pr.params k.p)),
    ("monty_params_mod_q", .leaf (pr.params k.q)),
    ("public_key", publicModulus pr (k.p * k.q))]

/-- `RPParams`, src/paillier/ring_pedersen.rs:75-84 -/
def rpParams (pr : Printers I F G S V) (r : RPSetup) : Dbg V :=
  .node "RPParams" [("modulus", publicModulus pr r.modulus), ("base_randomizer", .leaf (pr.nat r.rp.t.val)), ("base_value", .leaf (pr.nat r.rp.s.val))]

/-- `AuxInfoPrecomputed`, src/entities/full.rs:77-101 -/
def auxInfoPrecomputed (pr : Printers I F G S V) (k : PaillierKey) (pub : BMap I Signing.PubAux) : Dbg V :=
  .node "AuxInfoPrecomputed" [("secret_aux", .node "SecretAuxInfoPrecomputed" [("paillier_sk", paillierKey pr k)]),
    ("public_aux", map pr (fun x => .node "PublicAuxInfoPrecomputed" [("paillier_pk", publicModulus pr x.pk), ("rp_params", rpParams pr x.rp)]) pub)]

/-- `Randomizer`, src/paillier/encryption.rs:28-32 -/
def randomizer {α : Type} (r : α) : Dbg V := .node "Randomizer" [("randomizer", secret "Uint" r), ("randomizer_mod", secret "Monty" r)]

/-- `Context`, src/protocols/interactive_signing.rs:1051-1070 -/
def signingContext {q : Nat} (pr : Printers I (ZMod q) G S V) (c : Signing.Context q I S G) : Dbg V :=
  .node "Context" [("scalar_message", .leaf (pr.scalar c.message)), ("epid", .leaf (pr.session c.epid)), ("my_id", .leaf (pr.id c.myId)),
    ("other_ids", idSet pr c.otherIds), ("all_ids", idSet pr c.allIds), ("key_share", keyShare pr c.keyShare),
    ("aux_info", auxInfoPrecomputed pr c.key c.pubAux), ("k", secret "Scalar" c.d.k), ("gamma", secret "Scalar" c.d.gamma),
    ("a", secret "Scalar" c.d.a), ("b", secret "Scalar" c.d.b), ("rho", randomizer c.d.rho), ("nu", randomizer c.d.nu)]

/-- `Context`, src/protocols/aux_gen.rs:387-394 -/
def auxGenContext (pr : Printers I F G S V) (c : AuxGen.Context I S) : Dbg V :=
  .node "Context" [("paillier_sk", paillierKey pr c.key), ("rp_params", rpParams pr c.rp), ("my_id", .leaf (pr.id c.myId)),
    ("other_ids", idSet pr c.otherIds), ("sid", .leaf (pr.session c.sid))]

/-- `Context`, src/protocols/key_refresh.rs:582-593 -/
def keyRefreshContext (pr : Printers I F G S V) (c : KeyRefresh.Context I F G S) : Dbg V :=
  .node "Context" [("paillier_sk", paillierKey pr c.key), ("rp_params", rpParams pr c.rp), ("xs", map pr (secret "Scalar") c.xs),
    ("ys", map pr (secret "Scalar") c.ys), ("taus", map pr (fun t => .node "SchSecret" [("0", secret "Scalar" t)]) c.taus),
    ("my_id", .leaf (pr.id c.myId)), ("other_ids", idSet pr c.otherIds), ("all_ids", idSet pr c.allIds), ("sid", .leaf (pr.session c.sid))]

/-- A round: its first field is the context, in src/protocols/interactive_signing.rs:1086-1094, 1449-1468, 1802-1822, 1993-1998, 2083-2094,
2301-2312, src/protocols/aux_gen.rs:396-400, 465-470, 613-619 and src/protocols/key_refresh.rs:595-599, 664-669, 860-867. The other fields are
left open: `rest` is what they print. -/
def round (name : String) (context : Dbg V) (rest : List (String × Dbg V)) : Dbg V := .node name (("context", context) :: rest)

end Debug

end Synedrion
