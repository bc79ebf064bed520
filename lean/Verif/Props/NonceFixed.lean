import Verif.Lemmas.NonceFixed
import Verif.Props.SigningAgreement

/-!
# C71: the nonce of a signature is fixed by the first messages
-/

set_option linter.unusedSectionVars false

namespace Synedrion.Props

open Synedrion Spec Signing

variable {q : Nat} [Fact q.Prime] {I Ep G : Type} [LinearOrder I] [AddCommGroup G] [Module (ZMod q) G] [DecidableEq G]

/-- The points that the first messages commit to, where they commit to one. -/
private noncomputable def opened (q : Nat) [Module (ZMod q) G] (g : G) (first : I → Echo1 G) (i : I) : G :=
  open Classical in if h : ∃ c, CommitsTo q g (first i) c then h.choose else 0

private theorem opened_eq {g : G} (hg : g ≠ 0) {first : I → Echo1 G} {i : I} {c : G} (h : CommitsTo q g (first i) c) : c = opened q g first i := by
  unfold opened
  rw [dif_pos ⟨c, h⟩]
  exact commitsTo_unique hg h (Exists.choose_spec (⟨c, h⟩ : ∃ c, CommitsTo q g (first i) c))

/-- Every point that enters the nonce of a finished run is the one committed to. -/
private theorem run_opened {E : Env q I Ep G} {epidOf : BMap I G → BMap I PublicAux → Ep} {message : ZMod q}
    {keyShare : KeyShare I (ZMod q) G} {auxInfo : AuxInfo I PaillierKey PublicAux} {me : I} {d : Draws q I} {r : Round1 q I Ep G}
    (hr : start E epidOf message keyShare auxInfo me d = .ok r)
    {in1 : List (I × Msg1 q G)} {in2 : List (I × Msg2 q I G)} {in3 : List (I × Msg3 q G)} {in4 : List (I × ZMod q)} {inErr : List (I × MsgErr I G)}
    {sig : RecoverableSignature q} (h : run E r in1 in2 in3 in4 inErr = .ok sig) {first : I → Echo1 G} (hown : first me = r.echo)
    (h1 : ∀ a ∈ in1, a.2.echo = first a.1)
    (hguess : ∀ a ∈ in2, ¬ Guessed E.elogH E.C.g (first a.1) a.2.echo.capGamma (r.ctx.epid, a.1) a.2.psiElog) :
    CommitsTo q E.C.g (first me) (d.gamma • E.C.g) ∧ ∀ a ∈ in2, CommitsTo q E.C.g (first a.1) a.2.echo.capGamma := by
  obtain ⟨_, _, _, hid, _, _, hoth, _⟩ := start_eq_ok hr
  refine ⟨hown ▸ start_commits hr, fun a ha => ?_⟩
  unfold run toRound4 at h
  simp only [Out.bind_eq_ok] at h
  obtain ⟨_, ⟨r3, h3, _⟩, _⟩ := h
  exact commitsTo_of_verify (toRound3_elog (by rw [hid, hoth]; simp) h3 h1 a ha).2 (hguess a ha)

/-- **C71 (a proof about another point is a guess).** Somebody who broadcast a commitment in round 1 and wants to use a nonce point it does not commit to can
answer at most one challenge, whatever points the proof begins with: of the `q` values the hash may take, at most one lets the proof be accepted. -/
theorem C71_other_point_is_guess (g : G) (first : Echo1 G) (gamma capA capN capB : G) (hno : ¬ CommitsTo q g first gamma) (e e' : ZMod q)
    (h : NonceAnswerable g first gamma capA capN capB e) (h' : NonceAnswerable g first gamma capA capN capB e') : e = e' := by
  by_contra hne
  exact hno (commitsTo_of_answerable h h' hne)

/-- **C71 (the first messages determine the nonce).** Let a party finish signing, and let `first` be the broadcasts of round 1, its own and those it received.
Unless one of the proofs it received in round 2 was a guess, each first message commits its sender to one nonce point and the `r` of the signature is the
x coordinate of the sum of these points. -/
theorem C71_nonce_committed (E : Env q I Ep G) (hC : CurveLaws E.C q) (hg : E.C.g ≠ 0) (epidOf : BMap I G → BMap I PublicAux → Ep) (message : ZMod q)
    (keyShare : KeyShare I (ZMod q) G) (auxInfo : AuxInfo I PaillierKey PublicAux) (me : I) (hme : me ∈ keyShare.pub.keySet) (d : Draws q I)
    (r : Round1 q I Ep G) (hr : start E epidOf message keyShare auxInfo me d = .ok r)
    (in1 : List (I × Msg1 q G)) (in2 : List (I × Msg2 q I G)) (in3 : List (I × Msg3 q G)) (in4 : List (I × ZMod q)) (inErr : List (I × MsgErr I G))
    (sig : RecoverableSignature q) (h : run E r in1 in2 in3 in4 inErr = .ok sig) (first : I → Echo1 G) (hown : first me = r.echo)
    (h1 : ∀ a ∈ in1, a.2.echo = first a.1)
    (hguess : ∀ a ∈ in2, ¬ Guessed E.elogH E.C.g (first a.1) a.2.echo.capGamma (epidOf keyShare.pub auxInfo.pub, a.1) a.2.psiElog) :
    ∃ gamma : I → G, (∀ i ∈ keyShare.pub.keySet, CommitsTo q E.C.g (first i) (gamma i) ∧ ∀ c, CommitsTo q E.C.g (first i) c → c = gamma i) ∧
      gamma me = d.gamma • E.C.g ∧ sig.r = (E.C.x (∑ i ∈ keyShare.pub.keySet, gamma i) : ZMod q) := by
  obtain ⟨_, _, _, hid, _, _, hoth, _, hep, _⟩ := start_eq_ok hr
  obtain ⟨o1, o2⟩ := run_opened hr h hown h1 (by rw [hep]; exact hguess)
  have hset : ∀ i ∈ keyShare.pub.keySet, i = me ∨ ∃ a ∈ in2, a.1 = i := by
    intro i hi
    by_cases him : i = me
    · exact .inl him
    have h' := h
    unfold run toRound4 toRound3 at h'
    simp only [Out.bind_eq_ok, finalizeResult_eq_ok] at h'
    obtain ⟨_, ⟨_, ⟨r2, h2, _, hc, _⟩, _⟩, _⟩ := h'
    obtain ⟨_, hto, _, _⟩ := collect_eq_ok.1 hc
    rw [toRound2_ok h2, hoth] at hto
    have : i ∈ (in2.map Prod.fst).toFinset := by rw [hto]; exact Finset.mem_erase.2 ⟨him, hi⟩
    rw [List.mem_toFinset] at this
    obtain ⟨a, ha, he⟩ := List.mem_map.1 this
    exact .inr ⟨a, ha, he⟩
  have hopen : ∀ i ∈ keyShare.pub.keySet, CommitsTo q E.C.g (first i) (opened q E.C.g first i) := by
    intro i hi
    rcases hset i hi with rfl | ⟨a, ha, rfl⟩
    · exact opened_eq hg o1 ▸ o1
    · exact opened_eq hg (o2 a ha) ▸ o2 a ha
  refine ⟨opened q E.C.g first, fun i hi => ⟨hopen i hi, fun c hc => commitsTo_unique hg hc (hopen i hi)⟩, (opened_eq hg o1).symm, ?_⟩
  obtain ⟨s, -, hs⟩ := run_determined hC hr h (opened q E.C.g first) (opened_eq hg o1).symm (fun a ha => opened_eq hg (o2 a ha))
  rw [Finset.insert_eq_of_mem hme] at hs
  obtain ⟨_, _, _, hrr, _⟩ := C44_signature_valid E.C hC _ _ _ _ _ hs
  exact hrr

/-- **C71 (nobody changes the nonce afterwards).** Let two runs of signing, of one party or of two, begin with the same broadcasts of round 1 and both finish,
whatever the others send from round 2 on in each of them. Unless one of the proofs received in round 2 was a guess, both signatures have the same `r`;
and if the message is the same, the signatures are the same. -/
theorem C71_nonce_fixed (E : Env q I Ep G) (hC : CurveLaws E.C q) (hg : E.C.g ≠ 0) (epidOf : BMap I G → BMap I PublicAux → Ep) (message message' : ZMod q)
    (keyShare keyShare' : KeyShare I (ZMod q) G) (hpub : keyShare'.pub = keyShare.pub) (auxInfo auxInfo' : AuxInfo I PaillierKey PublicAux)
    (me me' : I) (hme : me ∈ keyShare.pub.keySet) (hme' : me' ∈ keyShare.pub.keySet) (d d' : Draws q I) (r r' : Round1 q I Ep G)
    (hr : start E epidOf message keyShare auxInfo me d = .ok r) (hr' : start E epidOf message' keyShare' auxInfo' me' d' = .ok r')
    (in1 in1' : List (I × Msg1 q G)) (in2 in2' : List (I × Msg2 q I G)) (in3 in3' : List (I × Msg3 q G)) (in4 in4' : List (I × ZMod q))
    (inErr inErr' : List (I × MsgErr I G)) (first : I → Echo1 G) (hown : first me = r.echo) (hown' : first me' = r'.echo)
    (h1 : ∀ a ∈ in1, a.2.echo = first a.1) (h1' : ∀ a ∈ in1', a.2.echo = first a.1)
    (hguess : ∀ a ∈ in2, ¬ Guessed E.elogH E.C.g (first a.1) a.2.echo.capGamma (epidOf keyShare.pub auxInfo.pub, a.1) a.2.psiElog)
    (hguess' : ∀ a ∈ in2', ¬ Guessed E.elogH E.C.g (first a.1) a.2.echo.capGamma (epidOf keyShare'.pub auxInfo'.pub, a.1) a.2.psiElog)
    (sig sig' : RecoverableSignature q) (h : run E r in1 in2 in3 in4 inErr = .ok sig) (h' : run E r' in1' in2' in3' in4' inErr' = .ok sig') :
    sig.r = sig'.r ∧ (message = message' → sig = sig') := by
  constructor
  · obtain ⟨c, hc, -, e⟩ := C71_nonce_committed E hC hg epidOf message keyShare auxInfo me hme d r hr in1 in2 in3 in4 inErr sig h first hown h1 hguess
    obtain ⟨c', hc', -, e'⟩ := C71_nonce_committed E hC hg epidOf message' keyShare' auxInfo' me' (hpub ▸ hme') d' r' hr' in1' in2' in3' in4' inErr' sig' h' first
      hown' h1' hguess'
    rw [e, e', hpub, Finset.sum_congr rfl fun i hi => (hc' i (hpub ▸ hi)).2 (c i) (hc i hi).1]
  · rintro rfl
    obtain ⟨_, _, _, _, _, _, _, _, hep, _⟩ := start_eq_ok hr
    obtain ⟨_, _, _, _, _, _, _, _, hep', _⟩ := start_eq_ok hr'
    obtain ⟨o1, o2⟩ := run_opened hr h hown h1 (by rw [hep]; exact hguess)
    obtain ⟨o1', o2'⟩ := run_opened hr' h' hown' h1' (by rw [hep']; exact hguess')
    exact C57_signature_agreement E hC epidOf message keyShare keyShare' hpub auxInfo auxInfo' me me' hme hme' d d' r r' hr hr' in1 in1' in2 in2' in3 in3'
      in4 in4' inErr inErr' (opened q E.C.g first) (opened_eq hg o1).symm (opened_eq hg o1').symm (fun a ha => opened_eq hg (o2 a ha))
      (fun a ha => opened_eq hg (o2' a ha)) sig sig' h h'

section Examples

attribute [local instance] Toy.fact11 Toy.order11

/-- Three parties sign; any two of them meet the hypotheses of `C71_nonce_fixed`, with the broadcasts of all three, and `r` is 2. -/
example : ∃ (infos : Nat → AuxInfo Nat PaillierKey PublicAux) (r1 : Nat → Round1 11 Nat Nat (ZMod 11)) (sig : RecoverableSignature 11)
    (in1 : Nat → List (Nat × Msg1 11 (ZMod 11))) (in2 : Nat → List (Nat × Msg2 11 Nat (ZMod 11))) (in3 : Nat → List (Nat × Msg3 11 (ZMod 11)))
    (in4 : Nat → List (Nat × ZMod 11)) (first : Nat → Echo1 (ZMod 11)), sig.r = 2 ∧ Toy.signEnv.C.g ≠ 0 ∧
    ∀ i ∈ Toy.parties, start Toy.signEnv (fun _ _ => 7) (5 : ZMod 11) (Toy.signShares i) (infos i) i (Toy.signDraws i) = .ok (r1 i) ∧
      run Toy.signEnv (r1 i) (in1 i) (in2 i) (in3 i) (in4 i) [] = .ok sig ∧ in2 i ≠ [] ∧
      first i = (r1 i).echo ∧ (∀ a ∈ in1 i, a.2.echo = first a.1) ∧
      ∀ a ∈ in2 i, ¬ Guessed Toy.signEnv.elogH Toy.signEnv.C.g (first a.1) a.2.echo.capGamma (7, a.1) a.2.psiElog := by
  obtain ⟨infos, haux, hmod⟩ := Toy.exists_signInfos
  have hd : SigningDrawsValid Toy.signEnv.P Toy.parties (fun i => (infos i).secret.modulus) (fun i => (Toy.ringPedersen i).modulus) Toy.signDraws := by
    rw [funext hmod]; exact Toy.signDraws_valid
  have hst := C41_honest_start Toy.signEnv Toy.signEnv_setting (fun _ _ => 7) 5 6 Toy.parties Toy.signShares Toy.signShares_valid infos Toy.ringPedersen haux Toy.signDraws
  have hst' : ∀ i, ∃ r : Round1 11 Nat Nat (ZMod 11), i ∈ Toy.parties →
      start Toy.signEnv (fun _ _ => 7) (5 : ZMod 11) (Toy.signShares i) (infos i) i (Toy.signDraws i) = .ok r := by
    intro i
    by_cases hi : i ∈ Toy.parties
    · obtain ⟨r, -, hr⟩ := hst i hi
      exact ⟨r, fun _ => hr⟩
    · obtain ⟨r, -, hr⟩ := hst 1 (by decide)
      exact ⟨r, fun h => absurd h hi⟩
  choose r1 hr1 using hst'
  obtain ⟨sig, m1, r2, r3, -, -, -, h4, hm1, hrun⟩ := C41_honest_signature Toy.signEnv Toy.signEnv_setting (fun _ _ => 7) 5 6 Toy.parties Toy.signShares Toy.signShares_valid
    infos Toy.ringPedersen haux Toy.signDraws hd r1 hr1 (by decide +kernel) (by decide +kernel) (by decide +kernel) (by decide +kernel) (by decide +kernel)
  obtain ⟨h2, hrun⟩ := hrun (fun i => Toy.arrivals (fun j => m1 j i) i) (fun i _ => Toy.arrivals_fromOthers _ i)
  obtain ⟨-, hrun⟩ := hrun (fun i => Toy.arrivals (fun j => msg2 (r2 j)) i) (fun i _ => Toy.arrivals_fromOthers _ i)
  obtain ⟨r4, -, hrun⟩ := hrun (fun i => Toy.arrivals (fun j => (r3 j).msg) i) (fun i _ => Toy.arrivals_fromOthers _ i)
  refine ⟨infos, r1, sig, fun i => Toy.arrivals (fun j => m1 j i) i, fun i => Toy.arrivals (fun j => msg2 (r2 j)) i, _,
    fun i => Toy.arrivals (fun j => (r4 j).sigma) i, fun i => (r1 i).echo, ?_, by decide +kernel,
    fun i hi => ⟨hr1 i hi, hrun _ (fun _ => []) (fun i _ => Toy.arrivals_fromOthers _ i) i hi, ?_, rfl, ?_, ?_⟩⟩
  · rw [h4]; decide +kernel
  · simp only [Toy.parties, Finset.mem_insert, Finset.mem_singleton] at hi
    rcases hi with rfl | rfl | rfl
    · exact List.ne_nil_of_mem (Toy.mem_arrivals (j := 2) (by decide) (by decide))
    · exact List.ne_nil_of_mem (Toy.mem_arrivals (j := 1) (by decide) (by decide))
    · exact List.ne_nil_of_mem (Toy.mem_arrivals (j := 1) (by decide) (by decide))
  · intro a ha
    obtain ⟨j, hj, rfl⟩ := List.mem_map.1 ha
    have hj' := Finset.mem_of_mem_erase (mem_bsetIter.1 hj)
    have hne := Finset.ne_of_mem_erase (mem_bsetIter.1 hj)
    exact msg1_echo (hm1 j hj' i hi hne)
  · intro a ha
    obtain ⟨j, hj, rfl⟩ := List.mem_map.1 ha
    have hj' := Finset.mem_of_mem_erase (mem_bsetIter.1 hj)
    obtain ⟨_, hG, hpsi⟩ := toRound2_own (h2 j hj')
    obtain ⟨_, _, _, hid, _, _, _, hdj, hep, _⟩ := start_eq_ok (hr1 j hj')
    rw [hdj] at hG hpsi
    rw [hid, hep, hG] at hpsi
    obtain ⟨e1, e2⟩ := start_echo (hr1 j hj')
    have := not_guessed_of_prove Toy.signEnv.elogH Toy.signEnv.C.g (r1 j).echo (Toy.signDraws j).gamma (Toy.signDraws j).b ((7, j) : Nat × Nat)
      (Toy.signDraws j).elogAlpha (Toy.signDraws j).elogM e1 e2
    rw [← hG] at this hpsi
    show ¬ Guessed _ _ _ (r2 j).capGamma _ (r2 j).psiElog
    rw [hpsi]
    exact this

end Examples

end Synedrion.Props
