import Verif.Spec.NonceFixed
import Verif.Lemmas.SigningAgreement
import Verif.Lemmas.SigningEvidence
import Verif.Props.ZkCurve

/-!
# Lemmas for C71
-/

set_option linter.unusedSectionVars false

namespace Synedrion.Signing

open Synedrion Spec

variable {q : Nat} [Fact q.Prime] {I Ep G : Type} [LinearOrder I] [AddCommGroup G] [Module (ZMod q) G] [DecidableEq G]

/-- Answers to two different challenges open the commitment. -/
theorem commitsTo_of_answerable {g : G} {first : Echo1 G} {gamma capA capN capB : G} {e e' : ZMod q}
    (h : NonceAnswerable g first gamma capA capN capB e) (h' : NonceAnswerable g first gamma capA capN capB e') (hne : e ≠ e') : CommitsTo q g first gamma := by
  obtain ⟨z, u, a1, b1, c1⟩ := h
  obtain ⟨z', u', a2, b2, c2⟩ := h'
  obtain ⟨r1, r2, r3⟩ := Props.C26_special_soundness (F := ZMod q) (Aux := Unit) (fun _ => e) (fun _ => e') g
    (⟨e, capA, capN, capB, z, u⟩ : ElogProof (ZMod q) G) ⟨e', capA, capN, capB, z', u'⟩
    ⟨first.capB1, first.capB2, first.capY, gamma, g⟩ () () ((Props.C26_accepts_iff ..).2 ⟨rfl, a1, b1, c1⟩) ((Props.C26_accepts_iff ..).2 ⟨rfl, a2, b2, c2⟩)
    rfl rfl rfl hne
  simp only at r1 r2 r3
  exact ⟨_, r1, by rw [r2, r3, add_comm]⟩

/-- An accepted proof was a guess, or the point is the committed one. -/
theorem commitsTo_of_verify {Aux : Type} {H : ElogHash G Aux → ZMod q} {g : G} {first : Echo1 G} {gamma : G} {aux : Aux} {prf : ElogProof (ZMod q) G}
    (h : prf.verify H g ⟨first.capB1, first.capB2, first.capY, gamma, g⟩ aux = true) (hn : ¬ Guessed H g first gamma aux prf) :
    CommitsTo q g first gamma := by
  obtain ⟨he, a1, b1, c1⟩ := (Props.C26_accepts_iff ..).1 h
  unfold Guessed at hn
  push Not at hn
  obtain ⟨e, hans, hne⟩ := hn
  simp only at he a1 b1 c1
  rw [← he] at hne
  exact commitsTo_of_answerable hans ⟨_, _, a1, b1, c1⟩ hne

theorem commitsTo_unique {g : G} (hg : g ≠ 0) {first : Echo1 G} {gamma gamma' : G} (h : CommitsTo q g first gamma) (h' : CommitsTo q g first gamma') :
    gamma = gamma' := by
  obtain ⟨b, h1, h2⟩ := h
  obtain ⟨b', h1', h2'⟩ := h'
  have hb : b = b' := smul_left_injective _ hg (h1.symm.trans h1')
  subst hb
  exact add_left_cancel (h2.symm.trans h2')

/-- The commitment in a party's own first message -/
theorem start_echo {E : Env q I Ep G} {epidOf : BMap I G → BMap I PublicAux → Ep} {message : ZMod q} {keyShare : KeyShare I (ZMod q) G}
    {auxInfo : AuxInfo I PaillierKey PublicAux} {id : I} {d : Draws q I} {r : Round1 q I Ep G}
    (h : start E epidOf message keyShare auxInfo id d = .ok r) :
    r.echo.capB1 = d.b • E.C.g ∧ r.echo.capB2 = d.b • r.echo.capY + d.gamma • E.C.g := by
  unfold start at h
  split at h
  · cases h
  · simp only [Out.bind_eq_ok] at h
    obtain ⟨_, _, _, _, _, _, _, _, _, _, he⟩ := h
    cases he
    exact ⟨rfl, rfl⟩

/-- A party's own first message commits to its own nonce share. -/
theorem start_commits {E : Env q I Ep G} {epidOf : BMap I G → BMap I PublicAux → Ep} {message : ZMod q} {keyShare : KeyShare I (ZMod q) G}
    {auxInfo : AuxInfo I PaillierKey PublicAux} {id : I} {d : Draws q I} {r : Round1 q I Ep G}
    (h : start E epidOf message keyShare auxInfo id d = .ok r) : CommitsTo q E.C.g r.echo (d.gamma • E.C.g) :=
  ⟨_, (start_echo h).1, (start_echo h).2⟩

/-- The messages of round 1 carry the broadcast. -/
theorem msg1_echo {E : Env q I Ep G} {r : Round1 q I Ep G} {dest : I} {m : Msg1 q G} (h : msg1 E r dest = .ok m) : m.echo = r.echo := by
  unfold msg1 at h
  simp only [Out.bind_eq_ok] at h
  obtain ⟨_, _, _, _, _, _, _, _, _, _, he⟩ := h
  cases he
  rfl

/-- A proof made with the secrets of the commitment is not a guess: it could have answered every challenge. -/
theorem not_guessed_of_prove {Aux : Type} (H : ElogHash G Aux → ZMod q) (g : G) (first : Echo1 G) (gamma b : ZMod q) (aux : Aux) (alpha m : ZMod q)
    (h1 : first.capB1 = b • g) (h2 : first.capB2 = b • first.capY + gamma • g) :
    ¬ Guessed H g first (gamma • g) aux (ElogProof.prove H g gamma b ⟨first.capB1, first.capB2, first.capY, gamma • g, g⟩ aux alpha m) := by
  intro hG
  have hall : ∀ e : ZMod q, NonceAnswerable g first (gamma • g) (alpha • g) (m • g + alpha • first.capY) (m • g) e := fun e =>
    ⟨alpha + e * b, m + e * gamma, by rw [h1]; module, by rw [h2]; module, by module⟩
  have := (hG 0 (hall 0)).trans (hG 1 (hall 1)).symm
  exact zero_ne_one this

/-- The proof about the nonce point is verified against the first message of the same sender. -/
theorem recv2_elog {E : Env q I Ep G} {r : Round2 q I Ep G} {sender : I} {m : Msg2 q I G} {p : Payload2 q I G} (h : recv2 E r sender m = .ok p) :
    ∃ p1, r.payloads1.get? sender = some p1 ∧ m.psiElog.verify E.elogH E.C.g (p1.elogPub E.C.g m.echo.capGamma) (r.ctx.epid, sender) = true := by
  unfold recv2 at h
  simp only at h
  obtain ⟨_, _, h⟩ := Out.bind_eq_ok.1 h
  split at h
  · cases h
  split at h
  · cases h
  split at h
  · cases h
  obtain ⟨p1, hp, h⟩ := Out.bind_eq_ok.1 h
  obtain ⟨_, _, h⟩ := Out.bind_eq_ok.1 h
  obtain ⟨_, _, h⟩ := Out.bind_eq_ok.1 h
  split at h
  · cases h
  · rename_i hv
    refine ⟨p1, ?_, not_not.1 hv⟩
    simpa [recvGet, Out.ofOption_eq_ok] using hp

/-- Every nonce point a party accepts in round 2 was proved to be the one its sender had committed to. -/
theorem toRound3_elog {E : Env q I Ep G} {r : Round1 q I Ep G} (hme : r.ctx.myId ∉ r.ctx.otherIds) {in1 : List (I × Msg1 q G)}
    {in2 : List (I × Msg2 q I G)} {r3 : Round3 q I Ep G} (h : toRound3 E r in1 in2 = .ok r3) {first : I → Echo1 G}
    (h1 : ∀ a ∈ in1, a.2.echo = first a.1) :
    ∀ a ∈ in2, a.1 ≠ r.ctx.myId ∧ a.2.psiElog.verify E.elogH E.C.g
      ⟨(first a.1).capB1, (first a.1).capB2, (first a.1).capY, a.2.echo.capGamma, E.C.g⟩ (r.ctx.epid, a.1) = true := by
  unfold toRound3 at h
  simp only [Out.bind_eq_ok, finalizeResult_eq_ok] at h
  obtain ⟨r2, h2, pl, hc, -⟩ := h
  obtain ⟨hctx, -, -, -, hpl⟩ := toRound2_payloads h2
  rw [hctx] at hc
  obtain ⟨_, hto, _, hall⟩ := collect_eq_ok.1 hc
  intro a ha
  have hmem : a.1 ∈ r.ctx.otherIds := by rw [← hto, List.mem_toFinset]; exact List.mem_map.2 ⟨a, ha, rfl⟩
  have hne : a.1 ≠ r.ctx.myId := fun e => hme (e ▸ hmem)
  obtain ⟨p, hp, -⟩ := hall a ha
  obtain ⟨p1, hp1, hv⟩ := recv2_elog hp
  obtain ⟨m, b, hm, -, hg⟩ := hpl a.1 hmem hne
  rw [hg] at hp1
  cases hp1
  rw [h1 _ hm, hctx] at hv
  exact ⟨hne, hv⟩

end Synedrion.Signing
