import Verif.Spec.DebugOutput
import Verif.Lemmas.Signing
import Verif.Lemmas.AuxGen
import Verif.Lemmas.KeyRefresh
import Verif.Lemmas.ToySigningRun
import Verif.Props.EntryPoints

/-!
# Property C72: printing for debugging shows no secrets

The full statement: *whatever object of the library, or running session, is printed with `Debug`, the output is determined by its public
parts.* It holds of the results of all protocols, of the entry points, and of the sessions of key generation and key resharing
(`C72_results_partial`, `C72_key_init_partial`, `C72_resharing_partial`). It is false of sessions that hold the expanded Paillier key: signing,
auxiliary info generation and key refresh (`C72_signing_shows_primes`, `C72_aux_gen_shows_primes`, `C72_key_refresh_shows_primes`).
-/

set_option linter.unusedSectionVars false

namespace Synedrion.Props

open Spec

section

variable {I F G S V : Type} [LinearOrder I]

/-- Results of protocols, and the entry points made from them, print their public parts only. -/
theorem C72_results_partial (pr : Printers I F G S V) :
    ShowsOnly (Debug.keyShare pr) (fun k : KeyShare I F G => (k.owner, k.pub)) ∧
    ShowsOnly (Debug.keyShareChange pr) (fun k : KeyShareChange I F G => (k.owner, k.publicShareChanges)) ∧
    ShowsOnly (Debug.thresholdKeyShare pr) (publicThreshold (I := I) (F := F) (G := G)) ∧
    ShowsOnly (Debug.auxInfo pr) (fun a : AuxInfo I PaillierKey PublicAux => (a.owner, a.pub)) ∧
    ShowsOnly (fun x : KeyShare I F G × AuxInfo I PaillierKey PublicAux × F => Debug.interactiveSigning pr x.1 x.2.1 x.2.2)
      (fun x => ((x.1.owner, x.1.pub), (x.2.1.owner, x.2.1.pub), x.2.2)) ∧
    ShowsOnly (Debug.keyResharing pr)
      (fun k : KeyResharing.Inputs I F G => (k.oldHolder.map publicThreshold, k.newHolder, k.newHolders, k.newThreshold)) := by
  have hshare : ShowsOnly (Debug.keyShare pr) (fun k : KeyShare I F G => (k.owner, k.pub)) := by
    rintro ⟨o, s, p⟩ ⟨o', s', p'⟩ h
    obtain ⟨rfl, rfl⟩ := Prod.mk.inj h
    rfl
  have haux : ShowsOnly (Debug.auxInfo pr) (fun a : AuxInfo I PaillierKey PublicAux => (a.owner, a.pub)) := by
    rintro ⟨o, s, p⟩ ⟨o', s', p'⟩ h
    obtain ⟨rfl, rfl⟩ := Prod.mk.inj h
    rfl
  have hthr : ShowsOnly (Debug.thresholdKeyShare pr) (publicThreshold (I := I) (F := F) (G := G)) := by
    rintro ⟨o, t, s, i, p⟩ ⟨o', t', s', i', p'⟩ h
    simp only [publicThreshold, Prod.mk.injEq] at h
    obtain ⟨rfl, rfl, rfl, rfl⟩ := h
    rfl
  refine ⟨hshare, ?_, hthr, haux, ?_, ?_⟩
  · rintro ⟨o, s, p⟩ ⟨o', s', p'⟩ h
    obtain ⟨rfl, rfl⟩ := Prod.mk.inj h
    rfl
  · rintro ⟨k, a, m⟩ ⟨k', a', m'⟩ h
    obtain ⟨h1, h2⟩ := Prod.mk.inj h
    obtain ⟨h2, h3⟩ := Prod.mk.inj h2
    change m = m' at h3
    subst h3
    simp only [Debug.interactiveSigning, hshare k k' h1, haux a a' h2]
  · rintro ⟨o, n, hs, t⟩ ⟨o', n', hs', t'⟩ h
    simp only [Prod.mk.injEq] at h
    obtain ⟨h1, rfl, rfl, rfl⟩ := h
    have : Debug.opt (fun s => Dbg.node "OldHolder" [("key_share", Debug.thresholdKeyShare pr s)]) o =
        Debug.opt (fun s => Dbg.node "OldHolder" [("key_share", Debug.thresholdKeyShare pr s)]) o' := by
      cases o <;> cases o' <;> simp only [Option.map_some, Option.map_none, reduceCtorEq, Option.some.injEq] at h1
      · rfl
      · simp only [Debug.opt, hthr _ _ h1]
    simp only [Debug.keyResharing, this]

/-- The sessions of key generation print what they publish or have received, and not the share or the masks of the proofs. -/
theorem C72_key_init_partial {W : Type} (pr : Printers I F G S V) (hash : W → V) :
    ShowsOnly (Debug.keyInitRound1 pr) (fun c : KeyInit.Context I F G S => (c.otherIds, c.myId, c.data, c.sid)) ∧
    ShowsOnly (Debug.keyInitRound2 pr hash) (fun r : KeyInit.Round2 I F G S W => ((r.ctx.otherIds, r.ctx.myId, r.ctx.data, r.ctx.sid), r.capVs)) ∧
    ShowsOnly (Debug.keyInitRound3 pr) (fun r : KeyInit.Round3 I F G S =>
      ((r.ctx.otherIds, r.ctx.myId, r.ctx.data, r.ctx.sid), r.capXs, r.capAs, r.rhoCombined)) := by
  have hctx : ShowsOnly (Debug.keyInitContext pr) (fun c : KeyInit.Context I F G S => (c.otherIds, c.myId, c.data, c.sid)) := by
    rintro ⟨o, m, x, t, d, s⟩ ⟨o', m', x', t', d', s'⟩ h
    simp only [Prod.mk.injEq] at h
    obtain ⟨rfl, rfl, rfl, rfl⟩ := h
    rfl
  refine ⟨fun a b h => ?_, ?_, ?_⟩
  · simp only [Debug.keyInitRound1, hctx a b h]
  · rintro ⟨c, v⟩ ⟨c', v'⟩ h
    obtain ⟨h1, h2⟩ := Prod.mk.inj h
    change v = v' at h2
    subst h2
    simp only [Debug.keyInitRound2, hctx c c' h1]
  · rintro ⟨c, x, a, r⟩ ⟨c', x', a', r'⟩ h
    obtain ⟨h1, h2⟩ := Prod.mk.inj h
    simp only [Prod.mk.injEq] at h2
    obtain ⟨rfl, rfl, rfl⟩ := h2
    simp only [Debug.keyInitRound3, hctx c c' h1]

/-- The session of key resharing prints neither the shared polynomial nor anything else that depends on it, but for what is published. -/
theorem C72_resharing_partial (pr : Printers I F G S V) :
    ShowsOnly (Debug.keyResharingRound1 pr) (fun r : KeyResharing.Round1 I F G => (r.oldHolder.map publicOld, r.newHolder, r.newShareIds,
      r.newThreshold, r.myId, r.messageDestinations, r.expectingMessagesFrom)) := by
  have hold : ShowsOnly (Debug.oldHolderData pr) (publicOld (F := F) (G := G)) := by
    rintro ⟨s, p, c⟩ ⟨s', p', c'⟩ h
    simp only [publicOld, Prod.mk.injEq] at h
    obtain ⟨rfl, hl, rfl⟩ := h
    have : ∀ l : List F, l.map (Debug.secret (V := V) "Scalar") = List.replicate l.length (.hidden "Scalar") := by
      intro l
      induction l with
      | nil => rfl
      | cons a l ih => simp only [List.map_cons, ih, List.length_cons, List.replicate_succ, Debug.secret]
    simp only [Debug.oldHolderData, this, hl]
  rintro ⟨o, n, i, t, m, d, e⟩ ⟨o', n', i', t', m', d', e'⟩ h
  simp only [Prod.mk.injEq] at h
  obtain ⟨h1, rfl, rfl, rfl, rfl, rfl, rfl⟩ := h
  have : Debug.opt (Debug.oldHolderData pr) o = Debug.opt (Debug.oldHolderData pr) o' := by
    cases o <;> cases o' <;> simp only [Option.map_some, Option.map_none, reduceCtorEq, Option.some.injEq] at h1
    · rfl
    · simp only [Debug.opt, hold _ _ h1]
  simp only [Debug.keyResharingRound1, this]

/-- Two key shares of the same owner with the same public shares and different secrets print the same. -/
example (pr : Printers Nat (ZMod 11) (ZMod 11) Nat String) (m : BMap Nat (ZMod 11)) :
    Debug.keyShare pr ⟨1, 3, m⟩ = Debug.keyShare pr ⟨1, 4, m⟩ ∧ (⟨1, 3, m⟩ : KeyShare Nat (ZMod 11) (ZMod 11)) ≠ ⟨1, 4, m⟩ :=
  ⟨(C72_results_partial pr).1 _ _ rfl, fun h => absurd (congrArg KeyShare.secret h) (show (3 : ZMod 11) ≠ 4 by decide)⟩

/-! ### Sessions that hold the Paillier key -/

/-- Reading off the modulus of printed parameters -/
private noncomputable def readParams (pr : Printers I F G S V) (v : V) : Nat := Function.invFun pr.params v

private noncomputable def readAt (pr : Printers I F G S V) (path : List String) (d : Dbg V) : Option (Nat × Nat) :=
  match Field (path ++ ["monty_params_mod_p"]) d, Field (path ++ ["monty_params_mod_q"]) d with
  | some (.leaf v), some (.leaf w) => some (readParams pr v, readParams pr w)
  | _, _ => none

private theorem readParams_params {pr : Printers I F G S V} (h : ParamsShown pr) (n : Nat) : readParams pr (pr.params n) = n :=
  Function.leftInverse_invFun h n

end

section

variable {I F G S V : Type} [LinearOrder I]

/-- Whatever round a generation of auxiliary info is in, its output shows the primes just drawn. -/
theorem C72_aux_gen_shows_primes (pr : Printers I F G S V) (hpr : ParamsShown pr) :
    ∃ read : Dbg V → Option (Nat × Nat), ∀ (E : AuxEnv I S) (ids : Finset I) (sid : S) (id : I) (d : AuxDraws I) (c : AuxGen.Context I S),
      AuxGen.start E ids sid id d = .ok c → ∀ name rest, read (Debug.round name (Debug.auxGenContext pr c) rest) = some (d.p, d.q) := by
  refine ⟨readAt pr ["context", "paillier_sk"], fun E ids sid id d c h name rest => ?_⟩
  have hkey : c.key.p = d.p ∧ c.key.q = d.q := by
    unfold AuxGen.start AuxGen.makeData at h
    split at h
    · cases h
    · simp only [Out.bind_eq_ok] at h
      obtain ⟨x, ⟨sk, _, _, _, hx⟩, hc⟩ := h
      cases hx
      cases hc
      exact ⟨rfl, rfl⟩
  rw [← hkey.1, ← hkey.2]
  exact congrArg some (Prod.ext (readParams_params hpr _) (readParams_params hpr _))

variable [Field F] [LinearOrder F] [AddCommGroup G] [Module F G] [DecidableEq G]

/-- Whatever round a key refresh is in, its output shows the new primes. -/
theorem C72_key_refresh_shows_primes (pr : Printers I F G S V) (hpr : ParamsShown pr) :
    ∃ read : Dbg V → Option (Nat × Nat), ∀ (E : KeyRefresh.Env I S F G) (ids : Finset I) (sid : S) (id : I) (d : KeyRefresh.Draws I F)
      (c : KeyRefresh.Context I F G S), KeyRefresh.start E ids sid id d = .ok c →
      ∀ name rest, read (Debug.round name (Debug.keyRefreshContext pr c) rest) = some (d.aux.p, d.aux.q) := by
  refine ⟨readAt pr ["context", "paillier_sk"], fun E ids sid id d c h name rest => ?_⟩
  have hkey : c.key.p = d.aux.p ∧ c.key.q = d.aux.q := by
    unfold KeyRefresh.start AuxGen.makeData at h
    split at h
    · cases h
    · simp only [Out.bind_eq_ok] at h
      obtain ⟨x, ⟨sk, _, _, _, hx⟩, _, _, hc⟩ := h
      cases hx
      cases hc
      exact ⟨rfl, rfl⟩
  rw [← hkey.1, ← hkey.2]
  exact congrArg some (Prod.ext (readParams_params hpr _) (readParams_params hpr _))

end

section

open Signing

variable {q : Nat} [Fact q.Prime] {I Ep G V : Type} [LinearOrder I] [AddCommGroup G] [Module (ZMod q) G] [DecidableEq G]

/-- Whatever round a signing session is in, its output shows the primes of the signer's Paillier key, although printing the objects the
session was made from does not (`C72_results_partial`). -/
theorem C72_signing_shows_primes (pr : Printers I (ZMod q) G Ep V) (hpr : ParamsShown pr) :
    ∃ read : Dbg V → Option (Nat × Nat), ∀ (E : Env q I Ep G) (epidOf : BMap I G → BMap I PublicAux → Ep) (message : ZMod q)
      (share : KeyShare I (ZMod q) G) (info : AuxInfo I PaillierKey PublicAux) (id : I) (d : Draws q I) (r : Round1 q I Ep G),
      start E epidOf message share info id d = .ok r → ∀ rest,
      read (Debug.round "Round1" (Debug.signingContext pr r.ctx) rest) = some (info.secret.p, info.secret.q) ∧
      (∀ in1 r2, toRound2 E r in1 = .ok r2 →
        read (Debug.round "Round2" (Debug.signingContext pr r2.ctx) rest) = some (info.secret.p, info.secret.q)) ∧
      (∀ in1 in2 r3, toRound3 E r in1 in2 = .ok r3 →
        read (Debug.round "Round3" (Debug.signingContext pr r3.ctx) rest) = some (info.secret.p, info.secret.q)) := by
  refine ⟨readAt pr ["context", "aux_info", "secret_aux", "paillier_sk"], fun E epidOf message share info id d r h rest => ?_⟩
  obtain ⟨_, _, _, _, _, _, _, _, _, hkey⟩ := start_eq_ok h
  have main : ∀ (name : String) (c : Context q I Ep G), c.key = info.secret →
      readAt pr ["context", "aux_info", "secret_aux", "paillier_sk"] (Debug.round name (Debug.signingContext pr c) rest) =
        some (info.secret.p, info.secret.q) := by
    intro name c hc
    rw [← hc]
    exact congrArg some (Prod.ext (readParams_params hpr _) (readParams_params hpr _))
  refine ⟨main _ _ hkey, fun in1 r2 h2 => main _ _ ?_, fun in1 in2 r3 h3 => main _ _ ?_⟩
  · rw [toRound2_ok h2, hkey]
  · rw [(toRound3_ok h3).1, hkey]

end

/-! ### Concrete sessions -/

section

open Signing

attribute [local instance] Toy.fact11 Toy.order11

/-- Printing numbers in decimal -/
private def toyPrinters : Printers Nat (ZMod 11) (ZMod 11) Nat (Nat × String) :=
  ⟨fun i => (i, "id"), fun x => (x.val, "scalar"), fun x => (x.val, "point"), fun s => (s, "session"), fun n => (n, ""), fun _ => (0, "bits"), fun n => (n, "params")⟩

private theorem toyShown : ParamsShown toyPrinters := fun _ _ h => congrArg Prod.fst h

example : ∃ c, AuxGen.start Toy.auxEnv {1, 2, 3} 7 2 (Toy.auxDraws 2) = .ok c ∧
    ∃ read : Dbg (Nat × String) → Option (Nat × Nat), read (Debug.round "Round1" (Debug.auxGenContext toyPrinters c) []) = some (Toy.primeP, Toy.primeQ) := by
  obtain ⟨read, hread⟩ := C72_aux_gen_shows_primes toyPrinters toyShown
  obtain ⟨c, hc, _⟩ := (C49_aux_gen Toy.auxEnv 2 {1, 2, 3} 7 2 (Toy.auxDraws 2)).2 (by decide) (Toy.auxDraws_valid 2 (by decide))
  exact ⟨c, hc, read, hread _ _ _ _ _ _ hc _ _⟩

/-- Party 2 of the three signers, in round 3 -/
example : ∃ (info : AuxInfo Nat PaillierKey PublicAux) (r3 : Round3 11 Nat Nat (ZMod 11)), info.secret.modulus = Toy.primeP * Toy.primeQ ∧
    ∃ read : Dbg (Nat × String) → Option (Nat × Nat),
      read (Debug.round "Round3" (Debug.signingContext toyPrinters r3.ctx) []) = some (info.secret.p, info.secret.q) := by
  obtain ⟨infos, S, m1, o, _, _, hmod, _, _, _, _, _, _, hstart, _, _, h3⟩ := Toy.signRun
  obtain ⟨read, hread⟩ := C72_signing_shows_primes toyPrinters toyShown
  exact ⟨infos 2, _, hmod 2, read, (hread _ _ _ _ _ _ _ _ (hstart 2 (by decide)) []).2.2 _ _ _ (h3 2 (by decide))⟩

end

end Synedrion.Props
