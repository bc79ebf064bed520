import Verif.Lemmas.Machines
import Verif.Props.KeyInit
import Verif.Props.AuxGen
import Verif.Props.KeyRefresh

/-!
# The protocols work as intended if all parties follow them
-/

set_option linter.unusedSectionVars false

namespace Synedrion

open Spec

section Canonical

variable {I M : Type} [LinearOrder I]

/-- The messages in the order of the senders -/
def inOrder (ids : Finset I) (msg : I → I → M) (i : I) : List (I × M) := (bsetIter (ids.erase i)).map fun j => (j, msg j i)

theorem inOrder_fromOthers (ids : Finset I) (msg : I → I → M) (i : I) : FromOthers ids i (fun j => msg j i) (inOrder ids msg i) :=
  fromOthers_iff.2 (List.Perm.refl _)

theorem inOrder_map {N : Type} (ids : Finset I) (msg : I → I → M) (i : I) (inj : M → N) :
    ((bsetIter (ids.erase i)).map fun j => (j, inj (msg j i))) = (inOrder ids msg i).map fun a => (a.1, inj a.2) := by
  unfold inOrder
  rw [List.map_map]
  rfl

end Canonical

namespace KeyInit

variable {I F G Sid V : Type} [LinearOrder I] [Field F] [LinearOrder F] [AddCommGroup G] [Module F G] [DecidableEq G] [DecidableEq V]

theorem ideal (hashV : Sid → I → PublicData G → V) (H : SchHash G (SchAux I Sid) → F) (g : G) (hg : g ≠ 0) (ids : Finset I)
    (sid : Sid) (d : I → Draws F) (len : Nat) (hlen : ∀ i ∈ ids, (d i).rho.length = len)
    (ctx : I → Context I F G Sid) (hctx : ∀ i ∈ ids, start g ids sid i (d i) = .ok (ctx i)) (hsum : ∑ i ∈ ids, (d i).x ≠ 0) :
    ∃ (st : Nat → I → State I F G Sid V) (shares : I → KeyShare I F G), (machine hashV H g).Ideal ids (fun i => .one (ctx i)) 3 st shares ∧
      SharesKey g ids shares (∑ i ∈ ids, (d i).x) := by
  have hoth : ∀ i ∈ ids, (ctx i).otherIds = ids.erase i := by
    intro i hi
    have := hctx i hi
    simp only [start, hi, not_true_eq_false, if_false, Out.ok.injEq] at this
    rw [← this]
  let in1 := inOrder ids fun j _ => msg1 hashV (ctx j)
  let in2 := inOrder ids fun j _ => msg2 (ctx j)
  obtain ⟨r3, hto, hfin⟩ := Props.C36_honest_keygen hashV H g hg ids sid d len hlen ctx hctx in1 in2 (fun i _ => inOrder_fromOthers ids _ i)
    fun i _ => inOrder_fromOthers ids _ i
  let in3 := inOrder ids fun j _ => msg3 H (r3 j)
  obtain ⟨shares, hrun, hkey⟩ := (hfin in3 fun i _ => inOrder_fromOthers ids _ i).2 hsum
  have hcap : ∀ i, ∃ capVs : BMap I V, i ∈ ids → collect (ctx i).otherIds recv1 (in1 i) = .ok capVs ∧
      ((collect (ctx i).otherIds (recv2 hashV ⟨ctx i, capVs⟩) (in2 i)).bind fun pl => finalize2 ⟨ctx i, capVs⟩ pl) = .ok (r3 i) := by
    intro i
    by_cases hi : i ∈ ids
    · have := hto i hi
      unfold toRound3 at this
      rw [Out.bind_eq_ok] at this
      obtain ⟨capVs, h1, h2⟩ := this
      exact ⟨capVs, fun _ => ⟨h1, h2⟩⟩
    · exact ⟨BMap.empty, fun h => absurd h hi⟩
  choose capVs hcap using hcap
  have hr3 : ∀ i ∈ ids, (r3 i).ctx = ctx i := by
    intro i hi
    have h2 := (hcap i hi).2
    simp only [Out.bind_eq_ok, finalize2] at h2
    obtain ⟨_, _, _, _, h⟩ := h2
    rw [← Out.ok.inj h]
  let st : Nat → I → State I F G Sid V := fun k i => if k = 1 then .one (ctx i) else if k = 2 then .two ⟨ctx i, capVs i⟩ else .three (r3 i)
  let msg : Nat → I → I → Message F G V := fun k j _ => if k = 1 then .one (msg1 hashV (ctx j)) else if k = 2 then .two (msg2 (ctx j)) else .three (msg3 H (r3 j))
  have hexp : ∀ k i, 1 ≤ k → k ≤ 3 → i ∈ ids → (machine hashV H g).expected (st k i) = ids.erase i := by
    intro k i h1 h2 hi
    obtain rfl | rfl | rfl : k = 1 ∨ k = 2 ∨ k = 3 := by omega
    · exact hoth i hi
    · exact hoth i hi
    · show (r3 i).ctx.otherIds = _
      rw [hr3 i hi]; exact hoth i hi
  refine ⟨st, shares, Machine.Ideal.of_canonical (machine_regular hashV H g) (by omega) (fun i _ => rfl) ?_ ?_ msg ?_ ?_ ?_, hkey⟩
  · intro k i h1 h2 _
    obtain rfl | rfl | rfl : k = 1 ∨ k = 2 ∨ k = 3 := by omega
    · rfl
    · rfl
    · rfl
  · intro k i h1 h2 hi
    rw [hexp k i h1 h2 hi]; exact Finset.erase_subset _ _
  · intro k i h1 h2 hi j hj m
    rw [hexp k i h1 h2 hi, Finset.mem_erase] at hj
    have hij : i ∈ ids.erase j := Finset.mem_erase.2 ⟨fun h => hj.1 h.symm, hi⟩
    obtain rfl | rfl | rfl : k = 1 ∨ k = 2 ∨ k = 3 := by omega
    · exact mem_toAll.trans (and_iff_right (by rw [hoth j hj.2]; exact hij))
    · exact mem_toAll.trans (and_iff_right (by show i ∈ (ctx j).otherIds; rw [hoth j hj.2]; exact hij))
    · exact mem_toAll.trans (and_iff_right (by rw [hr3 j hj.2, hoth j hj.2]; exact hij))
  · intro k i h1 h2 hi
    rw [hexp k i h1 h2.le hi]
    obtain rfl | rfl : k = 1 ∨ k = 2 := by omega
    · have e := inOrder_map ids (fun j _ => msg1 hashV (ctx j)) i (Message.one : V → Message F G V)
      show (gather (ctx i).otherIds Message.one? recv1 ((bsetIter (ids.erase i)).map fun j => (j, Message.one (msg1 hashV (ctx j))))).bind _ = _
      rw [e, gather_map (part := Message.one?) (inj := Message.one) (fun _ => rfl), (hcap i hi).1]
      rfl
    · have e := inOrder_map ids (fun j _ => msg2 (ctx j)) i (Message.two : Msg2 G → Message F G V)
      show (gather (ctx i).otherIds Message.two? (recv2 hashV ⟨ctx i, capVs i⟩) ((bsetIter (ids.erase i)).map fun j => (j, Message.two (msg2 (ctx j))))).bind _ = _
      rw [e, gather_map (part := Message.two?) (inj := Message.two) (fun _ => rfl)]
      have h2 := (hcap i hi).2
      rw [Out.bind_eq_ok] at h2
      obtain ⟨pl, hpl, hf⟩ := h2
      rw [show collect (ctx i).otherIds (recv2 hashV ⟨ctx i, capVs i⟩) (inOrder ids (fun j _ => msg2 (ctx j)) i) = .ok pl from hpl, Out.bind_ok, hf]
      rfl
  · intro i hi
    rw [hexp 3 i (by omega) le_rfl hi]
    have e := inOrder_map ids (fun j _ => msg3 H (r3 j)) i (Message.three : SchProof F → Message F G V)
    show (gather (r3 i).ctx.otherIds Message.three? (recv3 H g (r3 i)) ((bsetIter (ids.erase i)).map fun j => (j, Message.three (msg3 H (r3 j))))).bind _ = _
    rw [e, gather_map (part := Message.three?) (inj := Message.three) (fun _ => rfl)]
    have h3 := hrun i hi
    unfold run at h3
    rw [hto i hi, Out.bind_ok, Out.bind_eq_ok] at h3
    obtain ⟨x, hx, hf⟩ := h3
    rw [hr3 i hi, show collect (ctx i).otherIds (recv3 H g (r3 i)) (inOrder ids (fun j _ => msg3 H (r3 j)) i) = .ok x from hx, Out.bind_ok, hf]
    rfl

end KeyInit

namespace AuxGen

variable {I Sid V : Type} [LinearOrder I] [DecidableEq V]

theorem send3_ok {E : AuxEnv I Sid} {r : Round3 I Sid} {m : I → Msg3} (h : ∀ j ∈ r.ctx.otherIds, msg3 E r j = .ok (m j)) :
    send3 E r = .ok ((bsetIter r.ctx.otherIds).map fun j => (j, m j)) := by
  unfold send3
  refine Out.mapM'_ok_of_forall (g := fun j => (j, m j)) fun j hj => ?_
  rw [h j (mem_bsetIter.1 hj)]
  rfl

theorem ideal (E : AuxEnv I Sid) (k : Nat) (hE : HashesValid E k) (hashV : Sid → I → Hashed → V) (ids : Finset I) (sid : Sid)
    (d : I → AuxDraws I) (hd : ∀ i ∈ ids, DrawsValid E k (d i))
    (hfac : ∀ i ∈ ids, ∀ j ∈ ids, i ≠ j → FacDrawsValid E.P ((d i).p * (d i).q) ((d j).rpP * (d j).rpQ) ((d i).facMasks j))
    (len : Nat) (hlen : ∀ i ∈ ids, (d i).rid.length = len)
    (ctx : I → Context I Sid) (hctx : ∀ i ∈ ids, start E ids sid i (d i) = .ok (ctx i)) :
    ∃ (st : Nat → I → State I Sid V) (res : I → AuxInfo I PaillierKey PublicAux), (machine E hashV).Ideal ids (fun i => .one (ctx i)) 3 st res ∧
      (ConsistentAux ids res fun j => ⟨(d j).p * (d j).q, (RPParams.withSecret ((d j).rpP * (d j).rpQ) E.P.modBits (d j).lambda (d j).tDraw).toWire⟩) ∧
      (∀ i ∈ ids, (res i).secret.p = (d i).p ∧ (res i).secret.q = (d i).q) ∧
      UsableAux E.P ids res fun j => ⟨_, RPParams.withSecret ((d j).rpP * (d j).rpQ) E.P.modBits (d j).lambda (d j).tDraw⟩ := by
  have hoth : ∀ i ∈ ids, (ctx i).otherIds = ids.erase i := by
    intro i hi
    obtain ⟨_, _, sk, _, h⟩ := start_ok (hctx i hi)
    rw [h]
  let in1 := inOrder ids fun j _ => msg1 hashV (ctx j)
  let in2 := inOrder ids fun j _ => msg2 (ctx j)
  obtain ⟨r3, m3, hto, hm3, hfin⟩ := Props.C54_honest_aux_gen E k hE hashV ids sid d hd hfac len hlen ctx hctx in1 in2 (fun i _ => inOrder_fromOthers ids _ i)
    fun i _ => inOrder_fromOthers ids _ i
  let in3 := inOrder ids fun j i => m3 j i
  obtain ⟨infos, hrun, hkey⟩ := hfin in3 fun i _ => inOrder_fromOthers ids _ i
  have hcap : ∀ i, ∃ capVs : BMap I V, i ∈ ids → collect (ctx i).otherIds recv1 (in1 i) = .ok capVs ∧
      ((collect (ctx i).otherIds (recv2 E hashV (ctx i).sid capVs) (in2 i)).bind fun pl => finalize2 E (ctx i) pl) = .ok (r3 i) := by
    intro i
    by_cases hi : i ∈ ids
    · have := hto i hi
      unfold toRound3 at this
      rw [Out.bind_eq_ok] at this
      obtain ⟨capVs, h1, h2⟩ := this
      exact ⟨capVs, fun _ => ⟨h1, h2⟩⟩
    · exact ⟨BMap.empty, fun h => absurd h hi⟩
  choose capVs hcap using hcap
  have hr3 : ∀ i ∈ ids, (r3 i).ctx = ctx i := by
    intro i hi
    have h2 := (hcap i hi).2
    simp only [Out.bind_eq_ok, finalize2] at h2
    obtain ⟨_, _, _, _, _, _, h⟩ := h2
    rw [← Out.ok.inj h]
  have hsend : ∀ i ∈ ids, send3 E (r3 i) = .ok ((bsetIter (ids.erase i)).map fun j => (j, m3 i j)) := by
    intro i hi
    have hc : (r3 i).ctx.otherIds = ids.erase i := by rw [hr3 i hi, hoth i hi]
    rw [← hc]
    refine send3_ok fun j hj => ?_
    rw [hc, Finset.mem_erase] at hj
    exact hm3 i hi j hj.2 fun h => hj.1 h.symm
  let st : Nat → I → State I Sid V := fun k i => if k = 1 then .one (ctx i) else if k = 2 then .two (ctx i) (capVs i) else
    .three (r3 i) ((bsetIter (ids.erase i)).map fun j => (j, m3 i j))
  let msg : Nat → I → I → Message V := fun k j i => if k = 1 then .one (msg1 hashV (ctx j)) else if k = 2 then .two (msg2 (ctx j)) else .three (m3 j i)
  have hexp : ∀ k i, 1 ≤ k → k ≤ 3 → i ∈ ids → (machine E hashV).expected (st k i) = ids.erase i := by
    intro k i h1 h2 hi
    obtain rfl | rfl | rfl : k = 1 ∨ k = 2 ∨ k = 3 := by omega
    · exact hoth i hi
    · exact hoth i hi
    · show (r3 i).ctx.otherIds = _
      rw [hr3 i hi]; exact hoth i hi
  refine ⟨st, infos, Machine.Ideal.of_canonical (machine_regular E hashV) (by omega) (fun i _ => rfl) ?_ ?_ msg ?_ ?_ ?_, hkey⟩
  · intro k i h1 h2 _
    obtain rfl | rfl | rfl : k = 1 ∨ k = 2 ∨ k = 3 := by omega
    · rfl
    · rfl
    · rfl
  · intro k i h1 h2 hi
    rw [hexp k i h1 h2 hi]; exact Finset.erase_subset _ _
  · intro k i h1 h2 hi j hj m
    rw [hexp k i h1 h2 hi, Finset.mem_erase] at hj
    have hij : i ∈ ids.erase j := Finset.mem_erase.2 ⟨fun h => hj.1 h.symm, hi⟩
    obtain rfl | rfl | rfl : k = 1 ∨ k = 2 ∨ k = 3 := by omega
    · exact mem_toAll.trans (and_iff_right (by rw [hoth j hj.2]; exact hij))
    · exact mem_toAll.trans (and_iff_right (by rw [hoth j hj.2]; exact hij))
    · show (i, m) ∈ ((bsetIter (ids.erase j)).map fun i => (i, m3 j i)).map (fun a => (a.1, Message.three a.2)) ↔ m = .three (m3 j i)
      rw [List.map_map, List.mem_map]
      constructor
      · rintro ⟨i', hi', h⟩
        cases h
        rfl
      · rintro rfl
        exact ⟨i, mem_bsetIter.2 hij, rfl⟩
  · intro k i h1 h2 hi
    rw [hexp k i h1 h2.le hi]
    obtain rfl | rfl : k = 1 ∨ k = 2 := by omega
    · have e := inOrder_map ids (fun j _ => msg1 hashV (ctx j)) i (Message.one : V → Message V)
      show (gather (ctx i).otherIds Message.one? recv1 ((bsetIter (ids.erase i)).map fun j => (j, Message.one (msg1 hashV (ctx j))))).bind _ = _
      rw [e, gather_map (part := Message.one?) (inj := Message.one) (fun _ => rfl), (hcap i hi).1]
      rfl
    · have e := inOrder_map ids (fun j _ => msg2 (ctx j)) i (Message.two : Msg2 → Message V)
      show (gather (ctx i).otherIds Message.two? (recv2 E hashV (ctx i).sid (capVs i)) ((bsetIter (ids.erase i)).map fun j => (j, Message.two (msg2 (ctx j))))).bind _ = _
      rw [e, gather_map (part := Message.two?) (inj := Message.two) (fun _ => rfl)]
      have h2 := (hcap i hi).2
      rw [Out.bind_eq_ok] at h2
      obtain ⟨pl, hpl, hf⟩ := h2
      rw [show collect (ctx i).otherIds (recv2 E hashV (ctx i).sid (capVs i)) (inOrder ids (fun j _ => msg2 (ctx j)) i) = .ok pl from hpl, Out.bind_ok, hf, Out.bind_ok,
        hsend i hi]
      rfl
  · intro i hi
    rw [hexp 3 i (by omega) le_rfl hi]
    have e := inOrder_map ids (fun j i => m3 j i) i (Message.three : Msg3 → Message V)
    show (gather (r3 i).ctx.otherIds Message.three? (recv3 E (r3 i)) ((bsetIter (ids.erase i)).map fun j => (j, Message.three (m3 j i)))).bind _ = _
    rw [e, gather_map (part := Message.three?) (inj := Message.three) (fun _ => rfl)]
    have h3 := hrun i hi
    unfold run at h3
    rw [hto i hi, Out.bind_ok, hsend i hi, Out.bind_ok, Out.bind_eq_ok] at h3
    obtain ⟨x, hx, hf⟩ := h3
    rw [hr3 i hi, show collect (ctx i).otherIds (recv3 E (r3 i)) (inOrder ids (fun j i => m3 j i) i) = .ok x from hx, Out.bind_ok]
    rw [← Out.ok.inj hf]

end AuxGen

namespace KeyRefresh

variable {I F G Sid V : Type} [LinearOrder I] [Field F] [LinearOrder F] [AddCommGroup G] [Module F G] [DecidableEq G] [DecidableEq V]

theorem send3_ok {E : Env I Sid F G} {r : Round3 I F G Sid} {m : I → Msg3 I F} (h : ∀ j ∈ r.ctx.otherIds, msg3 E r j = .ok (m j)) :
    send3 E r = .ok ((bsetIter r.ctx.otherIds).map fun j => (j, m j)) := by
  unfold send3
  refine Out.mapM'_ok_of_forall (g := fun j => (j, m j)) fun j hj => ?_
  rw [h j (mem_bsetIter.1 hj)]
  rfl

theorem ideal (E : Env I Sid F G) (k : Nat) (hE : HashesValid E.aux k) (hashV : Sid → I → Hashed I G → V) (ids : Finset I) (sid : Sid)
    (d : I → Draws I F) (hd : ∀ i ∈ ids, DrawsValid E.aux k (d i).aux)
    (hfac : ∀ i ∈ ids, ∀ j ∈ ids, i ≠ j →
      FacDrawsValid E.aux.P ((d i).aux.p * (d i).aux.q) ((d j).aux.rpP * (d j).aux.rpQ) ((d i).aux.facMasks j))
    (len : Nat) (hlen : ∀ i ∈ ids, (d i).aux.rid.length = len)
    (ctx : I → Context I F G Sid) (hctx : ∀ i ∈ ids, start E ids sid i (d i) = .ok (ctx i)) :
    ∃ (st : Nat → I → State I F G Sid V) (res : I → KeyShareChange I F G × AuxInfo I PaillierKey PublicAux), (machine E hashV).Ideal ids (fun i => .one (ctx i)) 3 st res ∧
      ZeroSumChange E.g ids (fun i => (res i).1) ∧
      (ConsistentAux ids (fun i => (res i).2) fun j => ⟨(d j).aux.p * (d j).aux.q,
        (RPParams.withSecret ((d j).aux.rpP * (d j).aux.rpQ) E.aux.P.modBits (d j).aux.lambda (d j).aux.tDraw).toWire⟩) ∧
      (∀ i ∈ ids, (res i).2.secret.p = (d i).aux.p ∧ (res i).2.secret.q = (d i).aux.q) ∧
      UsableAux E.aux.P ids (fun i => (res i).2)
        fun j => ⟨_, RPParams.withSecret ((d j).aux.rpP * (d j).aux.rpQ) E.aux.P.modBits (d j).aux.lambda (d j).aux.tDraw⟩ := by
  have hoth : ∀ i ∈ ids, (ctx i).otherIds = ids.erase i := by
    intro i hi
    obtain ⟨_, _, sk, x, _, _, h⟩ := start_ok (hctx i hi)
    rw [h]; rfl
  let in1 := inOrder ids fun j _ => msg1 hashV (ctx j)
  let in2 := inOrder ids fun j _ => msg2 (ctx j)
  obtain ⟨r3, m3, hto, hm3, hfin⟩ := Props.C38_honest_refresh E k hE hashV ids sid d hd hfac len hlen ctx hctx in1 in2 (fun i _ => inOrder_fromOthers ids _ i)
    fun i _ => inOrder_fromOthers ids _ i
  let in3 := inOrder ids fun j i => m3 j i
  obtain ⟨changes, infos, hrun, hkey⟩ := hfin in3 fun i _ => inOrder_fromOthers ids _ i
  have hcap : ∀ i, ∃ capVs : BMap I V, i ∈ ids → collect (ctx i).otherIds (recv1 (F := F)) (in1 i) = .ok capVs ∧
      ((collect (ctx i).otherIds (recv2 E hashV (ctx i).sid (ctx i).allIds capVs) (in2 i)).bind fun pl => finalizeResult (finalize2 E (ctx i) pl)) = .ok (r3 i) := by
    intro i
    by_cases hi : i ∈ ids
    · have := hto i hi
      unfold toRound3 at this
      rw [Out.bind_eq_ok] at this
      obtain ⟨capVs, h1, h2⟩ := this
      exact ⟨capVs, fun _ => ⟨h1, h2⟩⟩
    · exact ⟨BMap.empty, fun h => absurd h hi⟩
  choose capVs hcap using hcap
  have hr3 : ∀ i ∈ ids, (r3 i).ctx = ctx i := by
    intro i hi
    have h2 := (hcap i hi).2
    simp only [Out.bind_eq_ok, finalizeResult_eq_ok, finalize2] at h2
    obtain ⟨_, _, _, _, _, _, _, _, h⟩ := h2
    rw [← Out.ok.inj h]
  have hsend : ∀ i ∈ ids, send3 E (r3 i) = .ok ((bsetIter (ids.erase i)).map fun j => (j, m3 i j)) := by
    intro i hi
    have hc : (r3 i).ctx.otherIds = ids.erase i := by rw [hr3 i hi, hoth i hi]
    rw [← hc]
    refine send3_ok fun j hj => ?_
    rw [hc, Finset.mem_erase] at hj
    exact hm3 i hi j hj.2 fun h => hj.1 h.symm
  let st : Nat → I → State I F G Sid V := fun k i => if k = 1 then .one (ctx i) else if k = 2 then .two (ctx i) (capVs i) else
    .three (r3 i) ((bsetIter (ids.erase i)).map fun j => (j, m3 i j))
  let msg : Nat → I → I → Message I F G V := fun k j i => if k = 1 then .one (msg1 hashV (ctx j)) else if k = 2 then .two (msg2 (ctx j)) else .three (m3 j i)
  have hexp : ∀ k i, 1 ≤ k → k ≤ 3 → i ∈ ids → (machine E hashV).expected (st k i) = ids.erase i := by
    intro k i h1 h2 hi
    obtain rfl | rfl | rfl : k = 1 ∨ k = 2 ∨ k = 3 := by omega
    · exact hoth i hi
    · exact hoth i hi
    · show (r3 i).ctx.otherIds = _
      rw [hr3 i hi]; exact hoth i hi
  refine ⟨st, fun i => (changes i, infos i), Machine.Ideal.of_canonical (machine_regular E hashV) (by omega) (fun i _ => rfl) ?_ ?_ msg ?_ ?_ ?_, hkey⟩
  · intro k i h1 h2 _
    obtain rfl | rfl | rfl : k = 1 ∨ k = 2 ∨ k = 3 := by omega
    · rfl
    · rfl
    · rfl
  · intro k i h1 h2 hi
    rw [hexp k i h1 h2 hi]; exact Finset.erase_subset _ _
  · intro k i h1 h2 hi j hj m
    rw [hexp k i h1 h2 hi, Finset.mem_erase] at hj
    have hij : i ∈ ids.erase j := Finset.mem_erase.2 ⟨fun h => hj.1 h.symm, hi⟩
    obtain rfl | rfl | rfl : k = 1 ∨ k = 2 ∨ k = 3 := by omega
    · exact mem_toAll.trans (and_iff_right (by rw [hoth j hj.2]; exact hij))
    · exact mem_toAll.trans (and_iff_right (by rw [hoth j hj.2]; exact hij))
    · show (i, m) ∈ ((bsetIter (ids.erase j)).map fun i => (i, m3 j i)).map (fun a => (a.1, Message.three a.2)) ↔ m = .three (m3 j i)
      rw [List.map_map, List.mem_map]
      constructor
      · rintro ⟨i', hi', h⟩
        cases h
        rfl
      · rintro rfl
        exact ⟨i, mem_bsetIter.2 hij, rfl⟩
  · intro k i h1 h2 hi
    rw [hexp k i h1 h2.le hi]
    obtain rfl | rfl : k = 1 ∨ k = 2 := by omega
    · have e := inOrder_map ids (fun j _ => msg1 hashV (ctx j)) i (Message.one : V → Message I F G V)
      show (gather (ctx i).otherIds Message.one? recv1 ((bsetIter (ids.erase i)).map fun j => (j, Message.one (msg1 hashV (ctx j))))).bind _ = _
      rw [e, gather_map (part := Message.one?) (inj := Message.one) (fun _ => rfl), (hcap i hi).1]
      rfl
    · have e := inOrder_map ids (fun j _ => msg2 (ctx j)) i (Message.two : Msg2 I G → Message I F G V)
      show (gather (ctx i).otherIds Message.two? (recv2 E hashV (ctx i).sid (ctx i).allIds (capVs i)) ((bsetIter (ids.erase i)).map fun j => (j, Message.two (msg2 (ctx j))))).bind _ = _
      rw [e, gather_map (part := Message.two?) (inj := Message.two) (fun _ => rfl)]
      have h2 := (hcap i hi).2
      rw [Out.bind_eq_ok] at h2
      obtain ⟨pl, hpl, hf⟩ := h2
      rw [show collect (ctx i).otherIds (recv2 E hashV (ctx i).sid (ctx i).allIds (capVs i)) (inOrder ids (fun j _ => msg2 (ctx j)) i) = .ok pl from hpl, Out.bind_ok, hf, Out.bind_ok,
        hsend i hi]
      rfl
  · intro i hi
    rw [hexp 3 i (by omega) le_rfl hi]
    have e := inOrder_map ids (fun j i => m3 j i) i (Message.three : Msg3 I F → Message I F G V)
    show (gather (r3 i).ctx.otherIds Message.three? (recv3 E (r3 i)) ((bsetIter (ids.erase i)).map fun j => (j, Message.three (m3 j i)))).bind _ = _
    rw [e, gather_map (part := Message.three?) (inj := Message.three) (fun _ => rfl)]
    have h3 := hrun i hi
    unfold run at h3
    rw [hto i hi, Out.bind_ok, hsend i hi, Out.bind_ok, Out.bind_eq_ok] at h3
    obtain ⟨x, hx, hf⟩ := h3
    rw [hr3 i hi, show collect (ctx i).otherIds (recv3 E (r3 i)) (inOrder ids (fun j i => m3 j i) i) = .ok x from hx, Out.bind_ok]
    rw [hf]
    rfl

end KeyRefresh

end Synedrion
