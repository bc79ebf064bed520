import Verif.Lemmas.MachinesHistory
import Verif.Props.Agreement
import Verif.Props.KeyRefresh
import Verif.Props.SigningAgreement
import Verif.Props.Network
import Verif.Lemmas.NetworkExists

/-!
# C81, C82: executions with dishonest parties

`C81_*`: an honest party that finishes in an execution over the network, with any schedule and any number of dishonest others, has done what the sequential runs of the protocols do on the messages
it received, and the messages it received from other honest parties are the ones these made from what they received in turn. With the echo rounds, honest parties that finish agree.

`C82_*`: as soon as an honest party reveals its contribution (sends its round 2 message), its result is fixed: it does not depend on anything that is done afterwards.
-/

set_option linter.unusedSectionVars false

namespace Synedrion.Props

open Spec

section KeyInit

open KeyInit

variable {I F G Sid V : Type} [LinearOrder I] [Field F] [LinearOrder F] [AddCommGroup G] [Module F G] [DecidableEq G] [DecidableEq V]

/-- **C81 (key generation).** At any time of any execution, whatever the parties that are not honest do, there are the messages `in1 i`, `in2 i`, `in3 i` that honest party `i` has received
in the rounds it has completed such that: if it has finished, its result is that of the run on these messages; and those in the name of an honest party `j` are those `j` makes when it follows
the protocol on what it received itself. -/
theorem C81_key_init (hashV : Sid → I → PublicData G → V) (H : SchHash G (SchAux I Sid) → F) (g : G) (honest : Set I) (c : I → Context I F G Sid)
    (n : Net I (Message F G V) (State I F G Sid V) Err (KeyShare I F G)) (h : (machine hashV H g).Reachable honest (fun i => .one (c i)) n) :
    ∃ (in1 : I → List (I × V)) (in2 : I → List (I × Msg2 G)) (in3 : I → List (I × SchProof F)),
      (∀ i ∈ honest, ∀ a ∈ in1 i, ∃ s got, (s, got) ∈ n.past i ∧ (machine hashV H g).round s = 1 ∧ (a.1, .one a.2) ∈ got) ∧
      (∀ i ∈ honest, ∀ share, n.status i = .finished share → run hashV H g (c i) (in1 i) (in2 i) (in3 i) = .ok share) ∧
      ∀ i ∈ honest, ∀ j ∈ honest, OnlyFrom j (msg1 hashV (c j)) (in1 i) ∧ OnlyFrom j (msg2 (c j)) (in2 i) ∧
        ∀ m, (j, m) ∈ in3 i → ∃ r3, toRound3 hashV (c j) (in1 j) (in2 j) = .ok r3 ∧ m = msg3 H r3 := by
  have hh := history h
  exact ⟨_, _, _, hh.past1, hh.finished, fun i hi j hj => ⟨hh.first i hi j hj, hh.second i hi j hj, hh.third i hi j hj⟩⟩

private theorem senders1 {hashV : Sid → I → PublicData G → V} {H : SchHash G (SchAux I Sid) → F} {g : G} {c : Context I F G Sid} {i1 : List (I × V)} {i2 : List (I × Msg2 G)} {i3 : List (I × SchProof F)}
    {r : KeyShare I F G} (h : run hashV H g c i1 i2 i3 = .ok r) : (i1.map Prod.fst).Nodup ∧ (i1.map Prod.fst).toFinset = c.otherIds := by
  unfold run toRound3 at h
  simp only [Out.bind_eq_ok] at h
  obtain ⟨_, ⟨_, h1, _⟩, _⟩ := h
  exact ⟨(collect_eq_ok.1 h1).1, (collect_eq_ok.1 h1).2.1⟩

private theorem mem_of_senders {M : Type} {s : Finset I} {l : List (I × M)} {msg : M} {j : I} (h : (l.map Prod.fst).toFinset = s) (hj : j ∈ s) (ho : OnlyFrom j msg l) : (j, msg) ∈ l := by
  rw [← h, List.mem_toFinset, List.mem_map] at hj
  obtain ⟨⟨_, m⟩, hm, rfl⟩ := hj
  rw [← ho m hm]
  exact hm

private theorem start_facts {g : G} {ids : Finset I} {sid : Sid} {i : I} {d : Draws F} {c : Context I F G Sid} (h : start g ids sid i d = .ok c) : i ∈ ids ∧ c.otherIds = ids.erase i := by
  unfold start at h
  split at h
  · cases h
  · rename_i hi
    cases h
    exact ⟨not_not.1 hi, rfl⟩

/-- **C81 (agreement, key generation).** Two honest parties that finish, in an execution where the round 1 broadcasts are echoed, hold the same public shares, hence the same key, and each one's
secret share matches what the other one has as its public share. -/
theorem C81_key_init_agreement (hashV : Sid → I → PublicData G → V) (hinj : ∀ s i h h', hashV s i h = hashV s i h' → h = h') (H : SchHash G (SchAux I Sid) → F) (g : G)
    (honest : Set I) (ids : Finset I) (sid : Sid) (d : I → Draws F) (c : I → Context I F G Sid) (hc : ∀ i ∈ honest, start g ids sid i (d i) = .ok (c i))
    (n : Net I (Message F G V) (State I F G Sid V) Err (KeyShare I F G)) (h : (machine hashV H g).Reachable honest (fun i => .one (c i)) n)
    (hecho : (machine hashV H g).EchoAgree honest 1 id n) (a b : I) (ha : a ∈ honest) (hb : b ∈ honest) (hab : a ≠ b)
    (ksA ksB : KeyShare I F G) (hA : n.status a = .finished ksA) (hB : n.status b = .finished ksB) :
    ksA.pub = ksB.pub ∧ ksA.verifyingKeyAsPoint = ksB.verifyingKeyAsPoint ∧ ksA.pub.get? b = some (ksB.secret • g) ∧ ksB.pub.get? a = some (ksA.secret • g) := by
  have hh := history h
  have rA := hh.finished a ha _ hA
  have rB := hh.finished b hb _ hB
  refine C57_key_init_agreement hashV hinj H g ids sid a b hab (d a) (d b) _ _ (hc a ha) (hc b hb) _ _ _ _ _ _ ?_ ?_ ?_ ksA ksB rA rB
  · refine mem_of_senders (senders1 rA).2 ?_ (hh.first a ha b hb)
    rw [(start_facts (hc a ha)).2]
    exact Finset.mem_erase.2 ⟨hab.symm, (start_facts (hc b hb)).1⟩
  · refine mem_of_senders (senders1 rB).2 ?_ (hh.first b hb a ha)
    rw [(start_facts (hc b hb)).2]
    exact Finset.mem_erase.2 ⟨hab, (start_facts (hc a ha)).1⟩
  · intro j v w hv hw
    obtain ⟨s, got, hp, hr, hm⟩ := hh.past1 a ha _ hv
    obtain ⟨s', got', hp', hr', hm'⟩ := hh.past1 b hb _ hw
    have := hecho a ha b hb _ hp _ hp' hr hr' j _ _ hm hm'
    cases this
    rfl

/-- **C82 (key generation).** Let `n` be any situation in which the honest party `i` has revealed its public share to somebody. However things go on from there, with the other parties
free to decide what they send after having seen it: if `i` finishes, its result, and so the key, is always the same. -/
theorem C82_key_init (hashV : Sid → I → PublicData G → V) (hinj : ∀ s i h h', hashV s i h = hashV s i h' → h = h') (H : SchHash G (SchAux I Sid) → F) (g : G)
    (honest : Set I) (ids : Finset I) (sid : Sid) (d : I → Draws F) (c : I → Context I F G Sid) (i : I) (hi : i ∈ honest) (hc : start g ids sid i (d i) = .ok (c i))
    (n n' n'' : Net I (Message F G V) (State I F G Sid V) Err (KeyShare I F G)) (h : (machine hashV H g).Reachable honest (fun i => .one (c i)) n)
    (j : I) (m : Message F G V) (hrev : (machine hashV H g).Sent n i j 2 m)
    (h' : Relation.ReflTransGen ((machine hashV H g).Step honest) n n') (h'' : Relation.ReflTransGen ((machine hashV H g).Step honest) n n'')
    (ks' ks'' : KeyShare I F G) (hf' : n'.status i = .finished ks') (hf'' : n''.status i = .finished ks'') : ks' = ks'' := by
  have r' := (history (h.trans h')).finished i hi _ hf'
  have r'' := (history (h.trans h'')).finished i hi _ hf''
  rw [got1_eq h h' hi hrev] at r'
  rw [got1_eq h h'' hi hrev] at r''
  have nd := (senders1 r').1
  obtain ⟨o', x', k', own', -, _, -, f'⟩ := C37_finishing_party hashV H g ids sid i (d i) _ hc _ _ _ ks' r'
  obtain ⟨o'', x'', k'', own'', -, _, -, f''⟩ := C37_finishing_party hashV H g ids sid i (d i) _ hc _ _ _ ks'' r''
  have hpub : ks'.pub = ks''.pub := by
    ext k
    by_cases hk : k ∈ ids
    · by_cases hki : k = i
      · rw [hki, own', own'']
      · obtain ⟨v, m, _, hv, -, -, hh, hget, -⟩ := f' k hk hki
        obtain ⟨w, m', _, hw, -, -, hh', hget', -⟩ := f'' k hk hki
        have hvw : v = w := congrArg Prod.snd (List.inj_on_of_nodup_map nd hv hw rfl)
        have he := hinj _ _ _ _ (hh.trans (hvw.trans hh'.symm))
        have e1 : m.capX = m'.capX := congrArg PublicData.capX he
        rw [hget, hget', e1]
    · rw [BMap.get?_eq_none_iff.2, BMap.get?_eq_none_iff.2]
      · rw [← BMap.mem_keySet, k'']; exact hk
      · rw [← BMap.mem_keySet, k']; exact hk
  cases ks'
  cases ks''
  simp only at o' o'' x' x'' hpub
  rw [o', o'', x', x'', hpub]

end KeyInit

section AuxGen

open AuxGen

variable {I Sid V : Type} [LinearOrder I] [DecidableEq V]

/-- **C81 (auxiliary info).** The same for the generation of auxiliary info. -/
theorem C81_aux_gen (E : AuxEnv I Sid) (hashV : Sid → I → Hashed → V) (honest : Set I) (c : I → Context I Sid)
    (n : Net I (Message V) (State I Sid V) (Err I) (AuxInfo I PaillierKey PublicAux)) (h : (machine E hashV).Reachable honest (fun i => .one (c i)) n) :
    ∃ (in1 : I → List (I × V)) (in2 : I → List (I × Msg2)) (in3 : I → List (I × Msg3)),
      (∀ i ∈ honest, ∀ a ∈ in1 i, ∃ s got, (s, got) ∈ n.past i ∧ (machine E hashV).round s = 1 ∧ (a.1, .one a.2) ∈ got) ∧
      (∀ i ∈ honest, ∀ res, n.status i = .finished res → run E hashV (c i) (in1 i) (in2 i) (in3 i) = .ok res) ∧
      ∀ i ∈ honest, ∀ j ∈ honest, OnlyFrom j (msg1 hashV (c j)) (in1 i) ∧ OnlyFrom j (msg2 (c j)) (in2 i) ∧
        ∀ m, (j, m) ∈ in3 i → ∃ r3, toRound3 E hashV (c j) (in1 j) (in2 j) = .ok r3 ∧ msg3 E r3 i = .ok m := by
  have hh := history h
  exact ⟨_, _, _, hh.past1, hh.finished, fun i hi j hj => ⟨hh.first i hi j hj, hh.second i hi j hj, hh.third i hi j hj⟩⟩

private theorem senders1A {E : AuxEnv I Sid} {hashV : Sid → I → Hashed → V} {c : Context I Sid} {i1 : List (I × V)} {i2 : List (I × Msg2)} {i3 : List (I × Msg3)}
    {r : AuxInfo I PaillierKey PublicAux} (h : run E hashV c i1 i2 i3 = .ok r) : (i1.map Prod.fst).Nodup ∧ (i1.map Prod.fst).toFinset = c.otherIds := by
  unfold run toRound3 at h
  simp only [Out.bind_eq_ok] at h
  obtain ⟨_, ⟨_, h1, _⟩, _⟩ := h
  exact ⟨(collect_eq_ok.1 h1).1, (collect_eq_ok.1 h1).2.1⟩

private theorem start_factsA {E : AuxEnv I Sid} {ids : Finset I} {sid : Sid} {i : I} {d : AuxDraws I} {c : Context I Sid} (h : start E ids sid i d = .ok c) : i ∈ ids ∧ c.otherIds = ids.erase i := by
  obtain ⟨hi, _, sk, _, h⟩ := start_ok h
  rw [h]
  exact ⟨hi, rfl⟩

/-- **C81 (agreement, auxiliary info).** Two honest parties that finish, in an execution where the round 1 broadcasts are echoed, have the same public auxiliary info, and each one's
primes are those of the modulus that the other one has for it. -/
theorem C81_aux_gen_agreement (E : AuxEnv I Sid) (hashV : Sid → I → Hashed → V) (hinj : ∀ s i h h', hashV s i h = hashV s i h' → h = h')
    (honest : Set I) (ids : Finset I) (sid : Sid) (d : I → AuxDraws I) (c : I → Context I Sid) (hc : ∀ i ∈ honest, start E ids sid i (d i) = .ok (c i))
    (n : Net I (Message V) (State I Sid V) (Err I) (AuxInfo I PaillierKey PublicAux)) (h : (machine E hashV).Reachable honest (fun i => .one (c i)) n)
    (hecho : (machine E hashV).EchoAgree honest 1 id n) (a b : I) (ha : a ∈ honest) (hb : b ∈ honest) (hab : a ≠ b)
    (infoA infoB : AuxInfo I PaillierKey PublicAux) (hA : n.status a = .finished infoA) (hB : n.status b = .finished infoB) :
    infoA.pub = infoB.pub ∧ (∃ x, infoA.pub.get? b = some x ∧ x.pk = infoB.secret.p * infoB.secret.q) ∧
      ∃ x, infoB.pub.get? a = some x ∧ x.pk = infoA.secret.p * infoA.secret.q := by
  have hh := history h
  have rA := hh.finished a ha _ hA
  have rB := hh.finished b hb _ hB
  refine C57_aux_gen_agreement E hashV hinj ids sid a b hab (d a) (d b) _ _ (hc a ha) (hc b hb) _ _ _ _ _ _ ?_ ?_ ?_ infoA infoB rA rB
  · refine mem_of_senders (senders1A rA).2 ?_ (hh.first a ha b hb)
    rw [(start_factsA (hc a ha)).2]
    exact Finset.mem_erase.2 ⟨hab.symm, (start_factsA (hc b hb)).1⟩
  · refine mem_of_senders (senders1A rB).2 ?_ (hh.first b hb a ha)
    rw [(start_factsA (hc b hb)).2]
    exact Finset.mem_erase.2 ⟨hab, (start_factsA (hc a ha)).1⟩
  · intro j v w hv hw
    obtain ⟨s, got, hp, hr, hm⟩ := hh.past1 a ha _ hv
    obtain ⟨s', got', hp', hr', hm'⟩ := hh.past1 b hb _ hw
    have := hecho a ha b hb _ hp _ hp' hr hr' j _ _ hm hm'
    cases this
    rfl

/-- **C82 (auxiliary info).** From the moment on when the honest party `i` has revealed its public keys, the outcome is fixed: all continuations in which `i` finishes give it the same
info. -/
theorem C82_aux_gen (E : AuxEnv I Sid) (hashV : Sid → I → Hashed → V) (hinj : ∀ s i h h', hashV s i h = hashV s i h' → h = h')
    (honest : Set I) (ids : Finset I) (sid : Sid) (d : I → AuxDraws I) (c : I → Context I Sid) (i : I) (hi : i ∈ honest) (hc : start E ids sid i (d i) = .ok (c i))
    (n n' n'' : Net I (Message V) (State I Sid V) (Err I) (AuxInfo I PaillierKey PublicAux)) (h : (machine E hashV).Reachable honest (fun i => .one (c i)) n)
    (j : I) (m : Message V) (hrev : (machine E hashV).Sent n i j 2 m)
    (h' : Relation.ReflTransGen ((machine E hashV).Step honest) n n') (h'' : Relation.ReflTransGen ((machine E hashV).Step honest) n n'')
    (info' info'' : AuxInfo I PaillierKey PublicAux) (hf' : n'.status i = .finished info') (hf'' : n''.status i = .finished info'') :
    info'.owner = info''.owner ∧ info'.secret.p = info''.secret.p ∧ info'.secret.q = info''.secret.q ∧ info'.pub = info''.pub := by
  have r' := (history (h.trans h')).finished i hi _ hf'
  have r'' := (history (h.trans h'')).finished i hi _ hf''
  rw [got1_eq h h' hi hrev] at r'
  rw [got1_eq h h'' hi hrev] at r''
  have nd := (senders1A r').1
  obtain ⟨o', p', q', k', own', _, -, f'⟩ := C54_finishing_party E hashV ids sid i (d i) _ hc _ _ _ info' r'
  obtain ⟨o'', p'', q'', k'', own'', _, -, f''⟩ := C54_finishing_party E hashV ids sid i (d i) _ hc _ _ _ info'' r''
  refine ⟨o'.trans o''.symm, p'.trans p''.symm, q'.trans q''.symm, ?_⟩
  ext k
  by_cases hk : k ∈ ids
  · by_cases hki : k = i
    · rw [hki, own', own'']
    · obtain ⟨v, m, _, rpj, hv, -, -, -, -, hh, hget, -⟩ := f' k hk hki
      obtain ⟨w, m', _, rpj', hw, -, -, -, -, hh', hget', -⟩ := f'' k hk hki
      have hvw : v = w := congrArg Prod.snd (List.inj_on_of_nodup_map nd hv hw rfl)
      have he := hinj _ _ _ _ (hh.trans (hvw.trans hh'.symm))
      have e1 : m.pk = m'.pk := congrArg Hashed.pk he
      have e2 : rpj.toWire = rpj'.toWire := congrArg Hashed.rp he
      rw [hget, hget', e1, e2]
  · rw [BMap.get?_eq_none_iff.2, BMap.get?_eq_none_iff.2]
    · rw [← BMap.mem_keySet, k'']; exact hk
    · rw [← BMap.mem_keySet, k']; exact hk

end AuxGen

section KeyRefresh

open KeyRefresh

variable {I F G Sid V : Type} [LinearOrder I] [Field F] [LinearOrder F] [AddCommGroup G] [Module F G] [DecidableEq G] [DecidableEq V]

/-- **C81 (key refresh).** The same for key refresh. -/
theorem C81_key_refresh (E : Env I Sid F G) (hashV : Sid → I → Hashed I G → V) (honest : Set I) (c : I → Context I F G Sid)
    (n : Net I (Message I F G V) (State I F G Sid V) (Err I F) (KeyShareChange I F G × AuxInfo I PaillierKey PublicAux)) (h : (machine E hashV).Reachable honest (fun i => .one (c i)) n) :
    ∃ (in1 : I → List (I × V)) (in2 : I → List (I × Msg2 I G)) (in3 : I → List (I × Msg3 I F)),
      (∀ i ∈ honest, ∀ a ∈ in1 i, ∃ s got, (s, got) ∈ n.past i ∧ (machine E hashV).round s = 1 ∧ (a.1, .one a.2) ∈ got) ∧
      (∀ i ∈ honest, ∀ res, n.status i = .finished res → run E hashV (c i) (in1 i) (in2 i) (in3 i) = .ok res) ∧
      ∀ i ∈ honest, ∀ j ∈ honest, OnlyFrom j (msg1 hashV (c j)) (in1 i) ∧ OnlyFrom j (msg2 (c j)) (in2 i) ∧
        ∀ m, (j, m) ∈ in3 i → ∃ r3, toRound3 E hashV (c j) (in1 j) (in2 j) = .ok r3 ∧ msg3 E r3 i = .ok m := by
  have hh := history h
  exact ⟨_, _, _, hh.past1, hh.finished, fun i hi j hj => ⟨hh.first i hi j hj, hh.second i hi j hj, hh.third i hi j hj⟩⟩

private theorem senders1R {E : Env I Sid F G} {hashV : Sid → I → Hashed I G → V} {c : Context I F G Sid} {i1 : List (I × V)} {i2 : List (I × Msg2 I G)} {i3 : List (I × Msg3 I F)}
    {r : KeyShareChange I F G × AuxInfo I PaillierKey PublicAux} (h : run E hashV c i1 i2 i3 = .ok r) : (i1.map Prod.fst).Nodup ∧ (i1.map Prod.fst).toFinset = c.otherIds := by
  unfold run toRound3 at h
  simp only [Out.bind_eq_ok] at h
  obtain ⟨_, ⟨_, h1, _⟩, _⟩ := h
  exact ⟨(collect_eq_ok.1 h1).1, (collect_eq_ok.1 h1).2.1⟩

private theorem start_factsR {E : Env I Sid F G} {ids : Finset I} {sid : Sid} {i : I} {d : Draws I F} {c : Context I F G Sid} (h : start E ids sid i d = .ok c) :
    i ∈ ids ∧ c.otherIds = ids.erase i := by
  obtain ⟨hi, _, sk, x, _, _, h⟩ := start_ok h
  rw [h]
  exact ⟨hi, rfl⟩

/-- **C81 (agreement, key refresh).** Two honest parties that finish, in an execution where the round 1 broadcasts are echoed, have the same public changes and public auxiliary info, and each
one's secret change matches what the other one has as its public change. -/
theorem C81_key_refresh_agreement (E : Env I Sid F G) (hashV : Sid → I → Hashed I G → V) (hinj : ∀ s i h h', hashV s i h = hashV s i h' → h = h')
    (honest : Set I) (ids : Finset I) (sid : Sid) (d : I → Draws I F) (c : I → Context I F G Sid) (hc : ∀ i ∈ honest, start E ids sid i (d i) = .ok (c i))
    (n : Net I (Message I F G V) (State I F G Sid V) (Err I F) (KeyShareChange I F G × AuxInfo I PaillierKey PublicAux))
    (h : (machine E hashV).Reachable honest (fun i => .one (c i)) n)
    (hecho : (machine E hashV).EchoAgree honest 1 id n) (a b : I) (ha : a ∈ honest) (hb : b ∈ honest) (hab : a ≠ b)
    (chA chB : KeyShareChange I F G) (infoA infoB : AuxInfo I PaillierKey PublicAux) (hA : n.status a = .finished (chA, infoA)) (hB : n.status b = .finished (chB, infoB)) :
    chA.publicShareChanges = chB.publicShareChanges ∧ infoA.pub = infoB.pub ∧
      chA.publicShareChanges.get? b = some (chB.secretShareChange • E.g) ∧ chB.publicShareChanges.get? a = some (chA.secretShareChange • E.g) := by
  have hh := history h
  have rA := hh.finished a ha _ hA
  have rB := hh.finished b hb _ hB
  refine C38_agreement E hashV hinj ids sid a b hab (d a) (d b) _ _ (hc a ha) (hc b hb) _ _ _ _ _ _ ?_ ?_ ?_ chA chB infoA infoB rA rB
  · refine mem_of_senders (senders1R rA).2 ?_ (hh.first a ha b hb)
    rw [(start_factsR (hc a ha)).2]
    exact Finset.mem_erase.2 ⟨hab.symm, (start_factsR (hc b hb)).1⟩
  · refine mem_of_senders (senders1R rB).2 ?_ (hh.first b hb a ha)
    rw [(start_factsR (hc b hb)).2]
    exact Finset.mem_erase.2 ⟨hab, (start_factsR (hc a ha)).1⟩
  · intro j v w hv hw
    obtain ⟨s, got, hp, hr, hm⟩ := hh.past1 a ha _ hv
    obtain ⟨s', got', hp', hr', hm'⟩ := hh.past1 b hb _ hw
    have := hecho a ha b hb _ hp _ hp' hr hr' j _ _ hm hm'
    cases this
    rfl

/-- **C82 (key refresh).** From the moment on when the honest party `i` has revealed its public changes, the outcome is fixed: all continuations in which `i` finishes give it the same
change and the same info. -/
theorem C82_key_refresh (E : Env I Sid F G) (hg : E.g ≠ 0) (hashV : Sid → I → Hashed I G → V) (hinj : ∀ s i h h', hashV s i h = hashV s i h' → h = h')
    (honest : Set I) (ids : Finset I) (sid : Sid) (d : I → Draws I F) (c : I → Context I F G Sid) (i : I) (hi : i ∈ honest) (hc : start E ids sid i (d i) = .ok (c i))
    (n n' n'' : Net I (Message I F G V) (State I F G Sid V) (Err I F) (KeyShareChange I F G × AuxInfo I PaillierKey PublicAux))
    (h : (machine E hashV).Reachable honest (fun i => .one (c i)) n)
    (j : I) (m : Message I F G V) (hrev : (machine E hashV).Sent n i j 2 m)
    (h' : Relation.ReflTransGen ((machine E hashV).Step honest) n n') (h'' : Relation.ReflTransGen ((machine E hashV).Step honest) n n'')
    (ch' ch'' : KeyShareChange I F G) (info' info'' : AuxInfo I PaillierKey PublicAux) (hf' : n'.status i = .finished (ch', info')) (hf'' : n''.status i = .finished (ch'', info'')) :
    ch' = ch'' ∧ info'.owner = info''.owner ∧ info'.secret.p = info''.secret.p ∧ info'.secret.q = info''.secret.q ∧ info'.pub = info''.pub := by
  have r' := (history (h.trans h')).finished i hi _ hf'
  have r'' := (history (h.trans h'')).finished i hi _ hf''
  rw [got1_eq h h' hi hrev] at r'
  rw [got1_eq h h'' hi hrev] at r''
  have nd := (senders1R r').1
  obtain ⟨o', k', -, m', io', p', q', ki', own', _, x', -, s', c', f'⟩ := C38_finishing_party E hashV ids sid i (d i) _ hc _ _ _ ch' info' r'
  obtain ⟨o'', k'', -, m'', io'', p'', q'', ki'', own'', _, x'', -, s'', c'', f''⟩ := C38_finishing_party E hashV ids sid i (d i) _ hc _ _ _ ch'' info'' r''
  have key : ∀ j ∈ ids, (∀ k ∈ ids, x' j k = x'' j k) ∧ info'.pub.get? j = info''.pub.get? j := by
    intro j hj
    by_cases hji : j = i
    · subst hji
      exact ⟨fun k hk => Option.some.inj ((c' k hk).symm.trans (c'' k hk)), own'.trans own''.symm⟩
    · obtain ⟨m, m3, rpj, -, -, hx, -, -, -, hv, hi, -⟩ := f' j hj hji
      obtain ⟨mm, mm3, rpjj, -, -, hx', -, -, -, hv', hi', -⟩ := f'' j hj hji
      have he := hinj _ _ _ _ (congrArg Prod.snd (List.inj_on_of_nodup_map nd hv hv' rfl))
      have e1 : m.capXs = mm.capXs := congrArg Hashed.capXs he
      have e2 : m.pk = mm.pk := congrArg (fun z => z.base.pk) he
      have e3 : rpj.toWire = rpjj.toWire := congrArg (fun z => z.base.rp) he
      refine ⟨fun k hk => ?_, ?_⟩
      · have h1 := hx k hk
        rw [e1, hx' k hk] at h1
        exact (Option.some.inj h1).symm
      · rw [hi, hi', e2, e3]
  have e1 : ch'.publicShareChanges = ch''.publicShareChanges := by
    rw [BMap.eq_tabulate_of k' s']
    symm
    refine BMap.eq_tabulate_of k'' fun k hk => ?_
    rw [s'' k hk]
    exact congrArg some (Finset.sum_congr rfl fun j hj => ((key j hj).1 k hk).symm)
  have e2 : ch'.secretShareChange = ch''.secretShareChange := by
    rw [e1, m''] at m'
    have e : (ch''.secretShareChange - ch'.secretShareChange) • E.g = 0 := by rw [sub_smul, Option.some.inj m', sub_self]
    exact (sub_eq_zero.1 ((smul_eq_zero.1 e).resolve_right hg)).symm
  refine ⟨?_, io'.trans io''.symm, p'.trans p''.symm, q'.trans q''.symm, ?_⟩
  · cases ch'
    cases ch''
    simp only at o' o'' e1 e2
    rw [o', o'', e1, e2]
  · ext k
    by_cases hk : k ∈ ids
    · rw [(key k hk).2]
    · rw [BMap.get?_eq_none_iff.2, BMap.get?_eq_none_iff.2]
      · rw [← BMap.mem_keySet, ki'']; exact hk
      · rw [← BMap.mem_keySet, ki']; exact hk

end KeyRefresh

section KeyResharing

open KeyResharing

variable {I F G : Type} [LinearOrder I] [Field F] [LinearOrder F] [AddCommGroup G] [Module F G] [DecidableEq G]

/-- **C81 (resharing).** The same for resharing, which has one round of direct messages. -/
theorem C81_key_resharing (g : G) (honest : Set I) (r : I → Round1 I F G) (init : I → State I F G) (hinit : ∀ i ∈ honest, begin (r i) = .ok (init i))
    (n : Net I (Msg F G) (State I F G) Err (Option (ThresholdKeyShare I F G))) (h : (machine g).Reachable honest init n) :
    ∃ inbox : I → List (I × Msg F G), (∀ i ∈ honest, ∀ res, n.status i = .finished res → run g (r i) (inbox i) = .ok res) ∧
      ∀ i ∈ honest, ∀ j ∈ honest, ∀ m, (j, m) ∈ inbox i → msg (r j) i = .ok (some m) := by
  obtain ⟨inbox, hh⟩ := history hinit h
  exact ⟨inbox, hh.finished, hh.only⟩

end KeyResharing

section Signing

open Signing

variable {q : Nat} [Fact q.Prime] {I Ep G : Type} [LinearOrder I] [AddCommGroup G] [Module (ZMod q) G] [DecidableEq G]

/-- **C81 (signing).** The same for signing. -/
theorem C81_signing (E : Env q I Ep G) (honest : Set I) (r : I → Round1 q I Ep G) (init : I → State q I Ep G) (hinit : ∀ i ∈ honest, begin E (r i) = .ok (init i))
    (n : Net I (Message q I G) (State q I Ep G) (Err I) (RecoverableSignature q)) (h : (machine E).Reachable honest init n) :
    ∃ (in1 : I → List (I × Msg1 q G)) (in2 : I → List (I × Msg2 q I G)) (in3 : I → List (I × Msg3 q G)) (in4 : I → List (I × ZMod q)),
      (∀ i ∈ honest, ∀ a ∈ in1 i, ∃ s got, (s, got) ∈ n.past i ∧ (machine E).round s = 1 ∧ (a.1, .one a.2) ∈ got) ∧
      (∀ i ∈ honest, ∀ a ∈ in2 i, ∃ s got, (s, got) ∈ n.past i ∧ (machine E).round s = 2 ∧ (a.1, .two a.2) ∈ got) ∧
      (∀ i ∈ honest, ∀ sig, n.status i = .finished sig → run E (r i) (in1 i) (in2 i) (in3 i) (in4 i) [] = .ok sig) ∧
      ∀ i ∈ honest, ∀ j ∈ honest, (∀ m, (j, m) ∈ in1 i → msg1 E (r j) i = .ok m) ∧
        (∀ m, (j, m) ∈ in2 i → ∃ r2, toRound2 E (r j) (in1 j) = .ok r2 ∧ m = msg2 r2) ∧
        (∀ m, (j, m) ∈ in3 i → ∃ r3, toRound3 E (r j) (in1 j) (in2 j) = .ok r3 ∧ m = r3.msg) ∧
        ∀ m, (j, m) ∈ in4 i → ∃ r4, toRound4 E (r j) (in1 j) (in2 j) (in3 j) = .ok (.round4 r4) ∧ m = r4.sigma := by
  obtain ⟨in1, in2, in3, in4, hh⟩ := history hinit h
  exact ⟨in1, in2, in3, in4, hh.past1, hh.past2, hh.finished, fun i hi j hj => ⟨hh.first i hi j hj, hh.second i hi j hj, hh.third i hi j hj, hh.fourth i hi j hj⟩⟩

private theorem capGamma_eq {E : Env q I Ep G} {r : Round1 q I Ep G} {in1 : List (I × Msg1 q G)} {r2 : Round2 q I Ep G} (h : toRound2 E r in1 = .ok r2) :
    (msg2 r2).echo.capGamma = r.ctx.d.gamma • E.C.g := by
  unfold toRound2 Signing.finalize1 at h
  simp only [Out.bind_eq_ok, finalizeResult_eq_ok] at h
  obtain ⟨_, _, _, _, _, _, _, _, _, _, _, _, he⟩ := h
  cases he
  rfl

private theorem senders2 {E : Env q I Ep G} {r : Round1 q I Ep G} {in1 : List (I × Msg1 q G)} {in2 : List (I × Msg2 q I G)} {in3 : List (I × Msg3 q G)} {in4 : List (I × ZMod q)}
    {inErr : List (I × MsgErr I G)} {sig : RecoverableSignature q} (h : run E r in1 in2 in3 in4 inErr = .ok sig) :
    (in2.map Prod.fst).Nodup ∧ (in2.map Prod.fst).toFinset = r.ctx.otherIds := by
  unfold run toRound4 toRound3 at h
  simp only [Out.bind_eq_ok, finalizeResult_eq_ok] at h
  obtain ⟨_, ⟨_, ⟨r2, h2, _, hc, _⟩, _⟩, _⟩ := h
  obtain ⟨nd, hto, _, _⟩ := collect_eq_ok.1 hc
  rw [toRound2_ok h2] at hto
  exact ⟨nd, hto⟩

/-- **C81 (agreement on the signature).** Two honest holders of the same public shares that finish signing the same message, in an execution where the round 2 broadcasts are echoed, have
the same signature. -/
theorem C81_signature_agreement (E : Env q I Ep G) (hC : CurveLaws E.C q) (epidOf : BMap I G → BMap I PublicAux → Ep) (message : ZMod q) (honest : Set I)
    (ids : Finset I) (pub : BMap I G) (hids : pub.keySet = ids)
    (keyShare : I → KeyShare I (ZMod q) G) (hpub : ∀ i ∈ honest, (keyShare i).pub = pub) (auxInfo : I → AuxInfo I PaillierKey PublicAux) (hsub : honest ⊆ ids) (d : I → Draws q I)
    (r : I → Round1 q I Ep G) (hr : ∀ i ∈ honest, start E epidOf message (keyShare i) (auxInfo i) i (d i) = .ok (r i))
    (init : I → State q I Ep G) (hinit : ∀ i ∈ honest, begin E (r i) = .ok (init i))
    (n : Net I (Message q I G) (State q I Ep G) (Err I) (RecoverableSignature q)) (h : (machine E).Reachable honest init n)
    (hecho : (machine E).EchoAgree honest 2 (fun m => m.two?.map fun m => m.echo) n) (a b : I) (ha : a ∈ honest) (hb : b ∈ honest)
    (sigA sigB : RecoverableSignature q) (hA : n.status a = .finished sigA) (hB : n.status b = .finished sigB) : sigA = sigB := by
  classical
  by_cases hab : a = b
  · subst hab
    rw [hA] at hB
    cases hB
    rfl
  obtain ⟨in1, in2, in3, in4, hh⟩ := history hinit h
  have rA := hh.finished a ha _ hA
  have rB := hh.finished b hb _ hB
  have fact : ∀ i ∈ honest, (r i).ctx.otherIds = ids.erase i ∧ (r i).ctx.d = d i := by
    intro i hi
    obtain ⟨_, _, _, _, _, _, hoth, hd, _⟩ := start_eq_ok (hr i hi)
    rw [hpub i hi, hids] at hoth
    exact ⟨hoth, hd⟩
  have own : ∀ i ∈ honest, ∀ k ∈ honest, ∀ m, (k, m) ∈ in2 i → m.echo.capGamma = (d k).gamma • E.C.g := by
    intro i hi k hk m hm
    obtain ⟨r2, h2, rfl⟩ := hh.second i hi k hk m hm
    rw [capGamma_eq h2, (fact k hk).2]
  have echo : ∀ k m m', (k, m) ∈ in2 a → (k, m') ∈ in2 b → m.echo = m'.echo := by
    intro k m m' hm hm'
    obtain ⟨s, got, hp, hrd, hg⟩ := hh.past2 a ha _ hm
    obtain ⟨s', got', hp', hrd', hg'⟩ := hh.past2 b hb _ hm'
    exact Option.some.inj (hecho a ha b hb _ hp _ hp' hrd hrd' k _ _ hg hg')
  have hasA : ∀ k ∈ ids, k ≠ a → ∃ m, (k, m) ∈ in2 a := by
    intro k hk hka
    have : k ∈ ((in2 a).map Prod.fst).toFinset := by
      rw [(senders2 rA).2, (fact a ha).1]
      exact Finset.mem_erase.2 ⟨hka, hk⟩
    rw [List.mem_toFinset, List.mem_map] at this
    obtain ⟨⟨_, m⟩, hm, rfl⟩ := this
    exact ⟨m, hm⟩
  have hneB : ∀ x ∈ in2 b, x.1 ≠ b ∧ x.1 ∈ ids := by
    intro x hx
    have : x.1 ∈ ((in2 b).map Prod.fst).toFinset := List.mem_toFinset.2 (List.mem_map.2 ⟨x, hx, rfl⟩)
    rw [(senders2 rB).2, (fact b hb).1] at this
    exact Finset.mem_erase.1 this
  have hneA : ∀ x ∈ in2 a, x.1 ≠ a := by
    intro x hx
    have : x.1 ∈ ((in2 a).map Prod.fst).toFinset := List.mem_toFinset.2 (List.mem_map.2 ⟨x, hx, rfl⟩)
    rw [(senders2 rA).2, (fact a ha).1] at this
    exact (Finset.mem_erase.1 this).1
  have uA : ∀ {k m m'}, (k, m) ∈ in2 a → (k, m') ∈ in2 a → m = m' := fun h h' => congrArg Prod.snd (List.inj_on_of_nodup_map (senders2 rA).1 h h' rfl)
  have hbc : ∀ k, ∃ x : G, (k = a → x = (d a).gamma • E.C.g) ∧ ∀ m, (k, m) ∈ in2 a → m.echo.capGamma = x := by
    intro k
    by_cases hka : k = a
    · subst hka
      exact ⟨_, fun _ => rfl, fun m hm => absurd rfl (hneA _ hm)⟩
    by_cases hex : ∃ m, (k, m) ∈ in2 a
    · obtain ⟨m, hm⟩ := hex
      exact ⟨m.echo.capGamma, fun h => absurd h hka, fun m' hm' => by rw [uA hm hm']⟩
    · exact ⟨0, fun h => absurd h hka, fun m hm => absurd ⟨m, hm⟩ hex⟩
  choose bc hbc using hbc
  have hkey : (keyShare b).pub = (keyShare a).pub := (hpub b hb).trans (hpub a ha).symm
  have hka : (keyShare a).pub.keySet = ids := by rw [hpub a ha, hids]
  refine C57_signature_agreement E hC epidOf message (keyShare a) (keyShare b) hkey (auxInfo a) (auxInfo b) a b (by rw [hka]; exact hsub ha) (by rw [hka]; exact hsub hb)
    (d a) (d b) (r a) (r b) (hr a ha) (hr b hb) (in1 a) (in1 b) (in2 a) (in2 b) (in3 a) (in3 b) (in4 a) (in4 b) [] [] bc ((hbc a).1 rfl) ?_ (fun x hx => (hbc x.1).2 x.2 hx) ?_
    sigA sigB rA rB
  · obtain ⟨m, hm⟩ := hasA b (hsub hb) (Ne.symm hab)
    rw [← (hbc b).2 m hm]
    exact own a ha b hb m hm
  · intro x hx
    by_cases hxa : x.1 = a
    · rw [hxa, (hbc a).1 rfl]
      refine own b hb a ha x.2 ?_
      rw [← hxa]
      exact hx
    · obtain ⟨m, hm⟩ := hasA x.1 (hneB x hx).2 hxa
      rw [← (hbc x.1).2 m hm, echo _ _ _ hm hx]

end Signing

section Examples

attribute [local instance] Toy.fact11 Toy.order11

/-- In all examples 1 and 2 are honest; 3 is not counted as honest. -/
private theorem two_of_three : ({1, 2} : Set Nat) ⊆ (({1, 2, 3} : Finset Nat) : Set Nat) := by
  rintro i (rfl | rfl) <;> simp

private theorem others_in (c : Nat → Finset Nat) (h : ∀ i ∈ ({1, 2, 3} : Finset Nat), c i = ({1, 2, 3} : Finset Nat).erase i) :
    ∀ i ∈ ({1, 2, 3} : Finset Nat), ∀ j ∈ c i, j ∈ ({1, 2, 3} : Finset Nat) := by
  intro i hi j hj
  rw [h i hi] at hj
  exact (Finset.mem_erase.1 hj).2

/-- The hypotheses of the C81 and C82 theorems about key generation are met: an execution with a moment `n₀` at which party 1 has just sent its round 2 message to 2, and an end `n` at which
both have finished; the round 1 broadcasts agree. -/
example : ∃ (n₀ n : Spec.Net Nat _ _ _ _) (shares : Nat → KeyShare Nat (ZMod 11) (ZMod 11)) (s : _) (m : _),
    (KeyInit.machine kgHashV kgH (1 : ZMod 11)).Reachable {1, 2} (fun i => .one (kgCtx i)) n₀ ∧ n₀.status 1 = .running s [] ∧
    (KeyInit.machine kgHashV kgH (1 : ZMod 11)).Sent n₀ 1 2 2 m ∧ Relation.ReflTransGen ((KeyInit.machine kgHashV kgH (1 : ZMod 11)).Step {1, 2}) n₀ n ∧
    (∀ i ∈ ({1, 2} : Set Nat), n.status i = .finished (shares i)) ∧ (KeyInit.machine kgHashV kgH (1 : ZMod 11)).EchoAgree {1, 2} 1 id n ∧
    (∀ s i h h', kgHashV s i h = kgHashV s i h' → h = h') := by
  obtain ⟨shares, h, -⟩ := C80_key_init kgHashV kgH (1 : ZMod 11) (by decide) {1, 2, 3} 7 kgDraws 3 (fun _ _ => rfl) kgCtx kgStart (by decide +kernel)
  obtain ⟨n, hn, hf, he⟩ := h.exists_agreeing (echo := id) (k := 1)
    (fun i hi l s hs => by rw [(KeyInit.replay_expected hs).1]; exact others_in _ (fun i hi => (start_facts (kgStart i hi)).2) i hi)
    (fun i hi l s hs hk => (KeyInit.replay_expected hs).2.symm.trans hk) KeyInit.send_one {1, 2} two_of_three
  obtain ⟨n₀, s, m, h0, h1, h2, h3⟩ := hn.sending (i := 1) (j := 2) (k := 1) (by simp) (by rw [KeyInit.past_length hn (hf 2 (by simp))]; omega)
    (fun l s hs => ⟨by rw [(KeyInit.replay_expected hs).1]; decide, (KeyInit.replay_expected hs).2⟩)
  refine ⟨n₀, n, shares, s, m, h0, h2, h3, h1, hf, he, ?_⟩
  intro s i h h' e
  exact (Prod.mk.inj (Prod.mk.inj e).2).2

/-- The same for auxiliary info -/
example : ∃ (ctx : Nat → AuxGen.Context Nat Nat) (n₀ n : Spec.Net Nat _ _ _ _) (res : Nat → AuxInfo Nat PaillierKey PublicAux) (s : _) (m : _),
    (∀ i ∈ ({1, 2} : Set Nat), AuxGen.start Toy.auxEnv {1, 2, 3} 7 i (Toy.auxDraws i) = .ok (ctx i)) ∧
    (AuxGen.machine Toy.auxEnv agHashV).Reachable {1, 2} (fun i => .one (ctx i)) n₀ ∧ n₀.status 1 = .running s [] ∧
    (AuxGen.machine Toy.auxEnv agHashV).Sent n₀ 1 2 2 m ∧ Relation.ReflTransGen ((AuxGen.machine Toy.auxEnv agHashV).Step {1, 2}) n₀ n ∧
    (∀ i ∈ ({1, 2} : Set Nat), n.status i = .finished (res i)) ∧ (AuxGen.machine Toy.auxEnv agHashV).EchoAgree {1, 2} 1 id n ∧
    (∀ s i h h', agHashV s i h = agHashV s i h' → h = h') := by
  have hst : ∀ i ∈ ({1, 2, 3} : Finset Nat), ∃ c, AuxGen.start Toy.auxEnv ({1, 2, 3} : Finset Nat) 7 i (Toy.auxDraws i) = .ok c := by
    intro i hi
    obtain ⟨c, h, _⟩ := C54_start Toy.auxEnv 2 {1, 2, 3} 7 i hi (Toy.auxDraws i) (Toy.auxDraws_valid i (by simp at hi; omega))
    exact ⟨c, h⟩
  have : Nonempty (AuxGen.Context Nat Nat) := ⟨(hst 1 (by decide)).choose⟩
  obtain ⟨ctx, hctx⟩ := exists_fun hst
  obtain ⟨res, h, -, hpq, -⟩ := C80_aux_gen Toy.auxEnv 2 Toy.auxEnv_valid agHashV {1, 2, 3} 7 Toy.auxDraws
    (fun i hi => Toy.auxDraws_valid i (by simp at hi; omega)) (fun i _ j _ _ => Toy.facDraws_valid i j) 3 (fun _ _ => rfl) ctx hctx
  have hoth := fun i hi => (start_factsA (hctx i hi)).2
  obtain ⟨n, hn, hf, he⟩ := h.exists_agreeing (echo := id) (k := 1)
    (fun i hi l s hs => by rw [(AuxGen.replay_expected hs).1]; exact others_in _ hoth i hi)
    (fun i hi l s hs hk => (AuxGen.replay_expected hs).2.symm.trans hk) AuxGen.send_one {1, 2} two_of_three
  obtain ⟨n₀, s, m, h0, h1, h2, h3⟩ := hn.sending (i := 1) (j := 2) (k := 1) (by simp) (by rw [AuxGen.past_length hn (hf 2 (by simp))]; omega)
    (fun l s hs => ⟨by rw [(AuxGen.replay_expected hs).1, hoth 2 (by decide)]; decide, (AuxGen.replay_expected hs).2⟩)
  refine ⟨ctx, n₀, n, res, s, m, fun i hi => hctx i (two_of_three hi), h0, h2, h3, h1, hf, he, ?_⟩
  intro s i h h' e
  exact (Prod.mk.inj (Prod.mk.inj e).2).2

/-- The same for key refresh -/
example : ∃ (ctx : Nat → KeyRefresh.Context Nat (ZMod 11) (ZMod 11) Nat) (n₀ n : Spec.Net Nat _ _ _ _)
    (res : Nat → KeyShareChange Nat (ZMod 11) (ZMod 11) × AuxInfo Nat PaillierKey PublicAux) (s : _) (m : _),
    (∀ i ∈ ({1, 2} : Set Nat), KeyRefresh.start refreshCaseEnv {1, 2, 3} 7 i (refreshCaseDraws i) = .ok (ctx i)) ∧
    (KeyRefresh.machine refreshCaseEnv refreshCaseHash).Reachable {1, 2} (fun i => .one (ctx i)) n₀ ∧ n₀.status 1 = .running s [] ∧
    (KeyRefresh.machine refreshCaseEnv refreshCaseHash).Sent n₀ 1 2 2 m ∧ Relation.ReflTransGen ((KeyRefresh.machine refreshCaseEnv refreshCaseHash).Step {1, 2}) n₀ n ∧
    (∀ i ∈ ({1, 2} : Set Nat), n.status i = .finished (res i)) ∧ (KeyRefresh.machine refreshCaseEnv refreshCaseHash).EchoAgree {1, 2} 1 id n ∧
    (∀ s i h h', refreshCaseHash s i h = refreshCaseHash s i h' → h = h') ∧ refreshCaseEnv.g ≠ 0 := by
  have hst : ∀ i ∈ ({1, 2, 3} : Finset Nat), ∃ c, KeyRefresh.start refreshCaseEnv ({1, 2, 3} : Finset Nat) 7 i (refreshCaseDraws i) = .ok c :=
    fun i hi => (C38_start refreshCaseEnv 2 {1, 2, 3} 7 i (refreshCaseDraws i) (Toy.auxDraws_valid i (by simp at hi; omega))).1 hi
  have : Nonempty (KeyRefresh.Context Nat (ZMod 11) (ZMod 11) Nat) := ⟨(hst 1 (by decide)).choose⟩
  obtain ⟨ctx, hctx⟩ := exists_fun hst
  obtain ⟨res, h, hz, -⟩ := C80_key_refresh refreshCaseEnv 2 Toy.auxEnv_valid refreshCaseHash {1, 2, 3} 7 refreshCaseDraws
    (fun i hi => Toy.auxDraws_valid i (by simp at hi; omega)) (fun i _ j _ _ => Toy.facDraws_valid i j) 3 (fun _ _ => rfl) ctx hctx
  have hoth := fun i hi => (start_factsR (hctx i hi)).2
  obtain ⟨n, hn, hf, he⟩ := h.exists_agreeing (echo := id) (k := 1)
    (fun i hi l s hs => by rw [(KeyRefresh.replay_expected hs).1]; exact others_in _ hoth i hi)
    (fun i hi l s hs hk => (KeyRefresh.replay_expected hs).2.symm.trans hk) KeyRefresh.send_one {1, 2} two_of_three
  obtain ⟨n₀, s, m, h0, h1, h2, h3⟩ := hn.sending (i := 1) (j := 2) (k := 1) (by simp) (by rw [KeyRefresh.past_length hn (hf 2 (by simp))]; omega)
    (fun l s hs => ⟨by rw [(KeyRefresh.replay_expected hs).1, hoth 2 (by decide)]; decide, (KeyRefresh.replay_expected hs).2⟩)
  refine ⟨ctx, n₀, n, res, s, m, fun i hi => hctx i (two_of_three hi), h0, h2, h3, h1, hf, he, ?_, by decide⟩
  intro s i h h' e
  exact (Prod.mk.inj (Prod.mk.inj e).2).2

/-- Resharing, where 1 (an old holder) and 4 (a new one) are honest -/
example (draw : Nat → Nat → ZMod 11) : ∃ (r : Nat → KeyResharing.Round1 Nat (ZMod 11) (ZMod 11)) (init : Nat → KeyResharing.State Nat (ZMod 11) (ZMod 11))
    (n : Spec.Net Nat _ _ _ _) (new : ThresholdKeyShare Nat (ZMod 11) (ZMod 11)),
    (∀ i ∈ ({1, 4} : Set Nat), KeyResharing.begin (r i) = .ok (init i)) ∧
    (KeyResharing.machine (1 : ZMod 11)).Reachable {1, 4} init n ∧ n.status 1 = .finished none ∧ n.status 4 = .finished (some new) := by
  obtain ⟨r, hr, -⟩ := C39_honest_resharing 11 (1 : ZMod 11) {1, 2, 3} {1, 2} {2, 3, 4} 2 3 reshareCase 5 reshareCase_sharing (by decide) (by decide) (by decide) (by decide) (by decide) 2 draw
  obtain ⟨init, res, new, h0, h, hnone, hsome, hk⟩ := C80_key_resharing 11 (1 : ZMod 11) {1, 2, 3} {1, 2} {2, 3, 4} 2 3 reshareCase 5 reshareCase_sharing (by decide) (by decide)
    (by decide) (by decide) (by decide) 2 draw r hr
  obtain ⟨n, hn, hf⟩ := h.exists_finished
  have hsub : ({1, 4} : Set Nat) ⊆ (({1, 2} ∪ {2, 3, 4} : Finset Nat) : Set Nat) := by rintro i (rfl | rfl) <;> simp
  obtain ⟨n', hn', he⟩ := hn.restrict hsub
  refine ⟨r, init, n', new 4, fun i hi => h0 i (hsub hi), hn', ?_, ?_⟩
  · rw [(he 1 (by simp)).1, hf 1 (by decide), hnone 1 (by decide) (by decide)]
  · rw [(he 4 (by simp)).1, hf 4 (by decide), hsome 4 (by decide)]

/-- Signing with party 3 not honest -/
example : ∃ (infos : Nat → AuxInfo Nat PaillierKey PublicAux) (r1 : Nat → Signing.Round1 11 Nat Nat (ZMod 11)) (init : Nat → Signing.State 11 Nat Nat (ZMod 11))
    (n : Spec.Net Nat _ _ _ _) (sig : RecoverableSignature 11) (pub : BMap Nat (ZMod 11)),
    (∀ i ∈ ({1, 2} : Set Nat), Signing.start Toy.signEnv (fun _ _ => 7) (5 : ZMod 11) (Toy.signShares i) (infos i) i (Toy.signDraws i) = .ok (r1 i)) ∧
    (∀ i ∈ ({1, 2} : Set Nat), Signing.begin Toy.signEnv (r1 i) = .ok (init i)) ∧ pub.keySet = Toy.parties ∧ (∀ i ∈ ({1, 2} : Set Nat), (Toy.signShares i).pub = pub) ∧
    (Signing.machine Toy.signEnv).Reachable {1, 2} init n ∧ (∀ i ∈ ({1, 2} : Set Nat), n.status i = .finished sig) ∧
    (Signing.machine Toy.signEnv).EchoAgree {1, 2} 2 (fun m => m.two?.map fun m => m.echo) n := by
  obtain ⟨infos, haux, hmod⟩ := Toy.exists_signInfos
  have hd : SigningDrawsValid Toy.signEnv.P Toy.parties (fun i => (infos i).secret.modulus) (fun i => (Toy.ringPedersen i).modulus) Toy.signDraws := by
    rw [funext hmod]; exact Toy.signDraws_valid
  have hst := C41_honest_start Toy.signEnv Toy.signEnv_setting (fun _ _ => 7) 5 6 Toy.parties Toy.signShares Toy.signShares_valid infos Toy.ringPedersen haux Toy.signDraws
  have : Nonempty (Signing.Round1 11 Nat Nat (ZMod 11)) := ⟨(hst 1 (by decide)).choose⟩
  obtain ⟨r1, hr1⟩ := exists_fun hst
  obtain ⟨init, sig, h0, h, -, -, -, h4⟩ := C80_signing Toy.signEnv Toy.signEnv_setting (fun _ _ => 7) 5 6 Toy.parties Toy.signShares Toy.signShares_valid
    infos Toy.ringPedersen haux Toy.signDraws hd r1 (fun i hi => (hr1 i hi).2) (by decide +kernel) (by decide +kernel) (by decide +kernel) (by decide +kernel) (by decide +kernel)
  have hpub : ∀ i ∈ Toy.parties, (Toy.signShares i).pub = (Toy.signShares 1).pub := fun i hi => rfl
  obtain ⟨n, hn, hf, he⟩ := h.exists_agreeing (echo := fun m => m.two?.map fun m => m.echo) (k := 2)
    (fun i hi l s hs j hj => by
      rw [(Signing.replay_expected (h0 i hi) hs).1, (Signing.start_eq_ok (hr1 i hi).2).2.2.2.2.2.2.1] at hj
      exact (Finset.mem_erase.1 hj).2)
    (fun i hi l s hs hk => (Signing.replay_expected (h0 i hi) hs).2 hk) (fun s hk a ha b hb => by rw [Signing.send_two s hk a ha b hb]) {1, 2} two_of_three
  exact ⟨infos, r1, init, n, sig, (Toy.signShares 1).pub, fun i hi => (hr1 i (two_of_three hi)).2, fun i hi => h0 i (two_of_three hi), by decide +kernel,
    fun i hi => hpub i (two_of_three hi), hn, hf, he⟩

end Examples

end Synedrion.Props
