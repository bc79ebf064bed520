import Verif.Lemmas.Signing
import Verif.Props.SigningError

/-!
# C52: proofs of the error rounds that nobody checks
-/

set_option linter.unusedSectionVars false

namespace Synedrion.Props

open Spec Signing

variable {q : Nat} [Fact q.Prime] {I Ep G : Type} [LinearOrder I] [AddCommGroup G] [Module (ZMod q) G] [DecidableEq G]

private theorem mapM'_congr' {ε α β : Type} {f g : α → Out ε β} {l : List α} (h : ∀ a ∈ l, f a = g a) : Out.mapM' f l = Out.mapM' g l := by
  induction l with
  | nil => rfl
  | cons a l ih =>
    simp only [Out.mapM', h a (by simp), ih fun b hb => h b (by simp [hb])]

private theorem traverse_congr {ε V W : Type} [Inhabited V] {m m' : BMap I V} {f : I → V → Out ε W} (hk : m.keySet = m'.keySet)
    (h : ∀ i v v', m.get? i = some v → m'.get? i = some v' → f i v = f i v') : m.traverse f = m'.traverse f := by
  have htr : ∀ (s : Finset I) (v : I → V), (BMap.tabulate s v).traverse f =
      (Out.mapM' (fun i => (f i (v i)).bind fun w => .ok (i, w)) (bsetIter s)).bind fun l => .ok (BMap.ofList l) := by
    intro s v
    unfold BMap.traverse BMap.tabulate
    simp only
    congr 1
    induction bsetIter s with
    | nil => rfl
    | cons a l ih => simp only [List.map_cons, Out.mapM', ih]
  rw [BMap.eq_tabulate m, BMap.eq_tabulate m', htr, htr, ← hk]
  congr 1
  refine mapM'_congr' fun i hi => ?_
  obtain ⟨v, hv⟩ := BMap.mem_keys_iff.1 (BMap.mem_keySet.1 (mem_bsetIter.1 hi))
  obtain ⟨v', hv'⟩ := BMap.mem_keys_iff.1 (BMap.mem_keySet.1 (hk ▸ mem_bsetIter.1 hi))
  rw [hv, hv', Option.getD_some, Option.getD_some, h i v v' hv hv']

/-- Two messages of an error round that differ at most in the multiplication proof for `me`. -/
def SameButProofFor (me : I) (m m' : MsgErr I G) : Prop :=
  m.psiStar = m'.psiStar ∧ m.psis.keySet = m'.psis.keySet ∧ ∀ id ≠ me, m.psis.get? id = m'.psis.get? id

private theorem recvErr_congr (E : Env q I Ep G) (r : ErrRound q I Ep G) (sender : I) {m m' : MsgErr I G} (h : SameButProofFor r.ctx.myId m m') :
    recvErr E r sender m = recvErr E r sender m' := by
  obtain ⟨h1, h2, h3⟩ := h
  rcases Finset.eq_empty_or_nonempty m.psis.keySet with he | ⟨i0, hi0⟩
  · have hm : m = m' := by
      obtain ⟨a, b⟩ := m
      obtain ⟨a', b'⟩ := m'
      simp only at h1 h2 h3 he
      subst h1
      congr 1
      refine BMap.ext fun i => ?_
      have e1 : b.get? i = none := by
        by_contra hne
        obtain ⟨v, hv⟩ := Option.ne_none_iff_exists'.1 hne
        have : i ∈ b.keySet := BMap.mem_keySet.2 (BMap.mem_keys_iff.2 ⟨v, hv⟩)
        rw [he] at this; cases this
      have e2 : b'.get? i = none := by
        by_contra hne
        obtain ⟨v, hv⟩ := Option.ne_none_iff_exists'.1 hne
        have : i ∈ b'.keySet := BMap.mem_keySet.2 (BMap.mem_keys_iff.2 ⟨v, hv⟩)
        rw [← h2, he] at this; cases this
      rw [e1, e2]
    rw [hm]
  · obtain ⟨v0, -⟩ := BMap.mem_keys_iff.1 (BMap.mem_keySet.1 hi0)
    have : Inhabited (AffGStarProof G) := ⟨v0⟩
    unfold recvErr
    simp only [h1, h2]
    congr 1; funext theirs
    congr 1; funext capD
    congr 1; funext capK
    congr 1; funext capX
    congr 1; funext capS
    congr 1; funext k
    congr 1; funext d
    congr 1; funext ok
    split
    · rfl
    split
    · rfl
    rw [traverse_congr h2]
    intro i v v' hv hv'
    by_cases hi : i = r.ctx.myId
    · simp only [if_pos hi]
    · have := h3 i hi
      rw [hv, hv'] at this
      cases this; rfl

/-- **C52 (a proof that is not checked).** In an error round every signer has to prove, for each other signer, that its ciphertexts of round 2 were made correctly.
A signer does not look at the proofs made for itself: whatever they contain, its run ends in the same way. With two signers these are all the
multiplication proofs there are. -/
theorem C52_own_star_unchecked (E : Env q I Ep G) (epidOf : BMap I G → BMap I PublicAux → Ep) (message : ZMod q) (keyShare : KeyShare I (ZMod q) G)
    (auxInfo : AuxInfo I PaillierKey PublicAux) (me : I) (d : Draws q I) (r : Round1 q I Ep G) (hr : start E epidOf message keyShare auxInfo me d = .ok r)
    (in1 : List (I × Msg1 q G)) (in2 : List (I × Msg2 q I G)) (in3 : List (I × Msg3 q G)) (in4 : List (I × ZMod q)) (inErr : List (I × MsgErr I G))
    (change : I → MsgErr I G → MsgErr I G) (hsame : ∀ a ∈ inErr, SameButProofFor me a.2 (change a.1 a.2)) :
    run E r in1 in2 in3 in4 (inErr.map fun a => (a.1, change a.1 a.2)) = run E r in1 in2 in3 in4 inErr := by
  obtain ⟨_, _, _, hid, _⟩ := start_eq_ok hr
  unfold run
  rcases h4 : toRound4 E r in1 in2 in3 with a | e | _
  · simp only [Out.bind_ok]
    cases a with
    | round4 r4 => rfl
    | error r4 =>
      have hctx : r4.ctx.myId = me := by
        obtain ⟨r3, pl, -, hctx, -, -, hf⟩ := toRound4_ok h4
        unfold finalize3 at hf
        simp only at hf
        split at hf
        · cases hf; rw [hctx, hid]
        split at hf
        · cases hf; rw [hctx, hid]
        split at hf <;> cases hf
      simp only [last]
      congr 1; funext _
      congr 1
      unfold collect
      simp only [List.map_map, Function.comp_def]
      split
      · congr 1
        have : ∀ l : List (I × MsgErr I G), (∀ a ∈ l, SameButProofFor me a.2 (change a.1 a.2)) →
            Out.mapM' (fun a : I × MsgErr I G => received a.1 (recvErr E r4 a.1 a.2)) (l.map fun a => (a.1, change a.1 a.2)) =
              Out.mapM' (fun a : I × MsgErr I G => received a.1 (recvErr E r4 a.1 a.2)) l := by
          intro l hl
          induction l with
          | nil => rfl
          | cons a l ih =>
            have h := hl a (by simp)
            rw [← hctx] at h
            simp only [List.map_cons, Out.mapM', ih fun b hb => hl b (by simp [hb]), ← recvErr_congr E r4 a.1 h]
        exact this inErr hsame
      · rfl
  · rfl
  · rfl

/-- Party 2 replaces the proof for party 1 by an empty one. -/
example (psi : DecProof (ZMod 11)) (p1 p3 : AffGStarProof (ZMod 11)) :
    SameButProofFor (1 : Nat) ⟨psi, BMap.ofList [(1, p1), (3, p3)]⟩ ⟨psi, BMap.ofList [(1, ⟨[], [], []⟩), (3, p3)]⟩ := by
  refine ⟨rfl, by simp only [BMap.ofList, BMap.keySet_insert, List.foldl_cons, List.foldl_nil], fun id hid => ?_⟩
  simp only [BMap.ofList, BMap.get?_insert, List.foldl_cons, List.foldl_nil]
  split
  · rfl
  · simp [hid]

/-- **C52 (what is checked).** A message of an error round is accepted only if it has exactly one multiplication proof for every signer but its sender, the proof of the decryption is valid, and so is every multiplication proof but
the one made for the receiver, each for the ciphertexts the sender and the signer it is made for had sent in rounds 1 and 2. (`C52_cheater_not_found` has messages that are accepted.) -/
theorem C52_accepted_message (E : Env q I Ep G) (r : ErrRound q I Ep G) (sender : I) (m : MsgErr I G) (h : recvErr E r sender m = .ok ()) :
    m.psis.keySet = r.ctx.allIds.erase sender ∧
    ∃ theirs capX, r.ctx.pubAux.get? sender = some theirs ∧ r.capXs.get? sender = some capX ∧
      (∃ k d capS, m.psiStar.verify E.P E.decH E.C.g q (⟨k, capX, d, capS, r.capG, r.ctx.allIds.card⟩ : DecPublic theirs.pk G) theirs.rp.rp (r.ctx.epid, sender) =
        (.ok true : Out (RecvErr (Err I)) Bool) ∧ r.capSs.get? sender = some capS) ∧
      ∀ id ∈ r.ctx.allIds, id ≠ sender → id ≠ r.ctx.myId → ∃ psi target capC rowD rowF capD capY, m.psis.get? id = some psi ∧ r.ctx.pubAux.get? id = some target ∧
        r.capKs.get? id = some capC ∧ r.capDs.get? sender = some rowD ∧ rowD.get? id = some capD ∧ r.capFs.get? sender = some rowF ∧ rowF.get? id = some capY ∧
        starVerify E target.pk theirs.pk psi capC capD capY capX (r.ctx.epid, sender) = (.ok true : Out (RecvErr (Err I)) Bool) := by
  have opt {ε V : Type} {e : ε} {o : Option V} {v : V} (h : Out.ofOption e o = .ok v) : o = some v := by
    cases o with
    | none => cases h
    | some w => injection h with h; rw [h]
  unfold recvErr at h
  obtain ⟨theirs, h1, h⟩ := Out.bind_eq_ok.1 h
  obtain ⟨_, -, h⟩ := Out.bind_eq_ok.1 h
  obtain ⟨_, -, h⟩ := Out.bind_eq_ok.1 h
  obtain ⟨capX, h2, h⟩ := Out.bind_eq_ok.1 h
  obtain ⟨capS, h3, h⟩ := Out.bind_eq_ok.1 h
  obtain ⟨k, -, h⟩ := Out.bind_eq_ok.1 h
  obtain ⟨d, -, h⟩ := Out.bind_eq_ok.1 h
  obtain ⟨ok, h4, h⟩ := Out.bind_eq_ok.1 h
  split at h
  · cases h
  next hok =>
  have hok : ok = true := by simpa using hok
  subst hok
  split at h
  · cases h
  next hk =>
  have hk : m.psis.keySet = r.ctx.allIds.erase sender := not_not.1 hk
  obtain ⟨m', h5, -⟩ := Out.bind_eq_ok.1 h
  obtain ⟨hk', hall⟩ := traverse_eq_ok h5
  refine ⟨hk, theirs, capX, opt h1, opt h2, ⟨k, d, capS, h4, opt h3⟩, fun id hid hs hme => ?_⟩
  have hin : id ∈ m'.keySet := by rw [hk', hk]; exact Finset.mem_erase.2 ⟨hs, hid⟩
  obtain ⟨w, hw⟩ := BMap.mem_keys_iff.1 (BMap.mem_keySet.1 hin)
  obtain ⟨psi, hpsi, h6⟩ := hall id w hw
  rw [if_neg hme] at h6
  obtain ⟨target, g1, h6⟩ := Out.bind_eq_ok.1 h6
  obtain ⟨capC, g2, h6⟩ := Out.bind_eq_ok.1 h6
  obtain ⟨capD, g3, h6⟩ := Out.bind_eq_ok.1 h6
  obtain ⟨capY, g4, h6⟩ := Out.bind_eq_ok.1 h6
  obtain ⟨ok, g5, h6⟩ := Out.bind_eq_ok.1 h6
  obtain ⟨rowD, g6, g7⟩ := Out.bind_eq_ok.1 g3
  obtain ⟨rowF, g8, g9⟩ := Out.bind_eq_ok.1 g4
  split at h6
  · cases h6
  next hok =>
  have hok : ok = true := by simpa using hok
  subst hok
  exact ⟨psi, target, capC, rowD, rowF, capD, capY, hpsi, opt g1, opt g2, opt g6, opt g7, opt g8, opt g9, g5⟩

/-- A message without any multiplication proofs is not accepted from one of two signers, whatever else it has. -/
example (E : Env q Nat Ep G) (r : ErrRound q Nat Ep G) (hr : r.ctx.allIds = {1, 2}) (psi : DecProof G) : recvErr E r 2 ⟨psi, BMap.ofList []⟩ ≠ .ok () := by
  intro h
  have h1 := (C52_accepted_message E r 2 _ h).1
  rw [hr] at h1
  have : (1 : Nat) ∈ (BMap.ofList ([] : List (Nat × AffGStarProof G))).keySet := by rw [h1]; decide
  simp [BMap.ofList, BMap.empty, BMap.keySet, BMap.keys] at this

end Synedrion.Props
