import Verif.Model.Signing
import Verif.Lemmas.Session
import Verif.Lemmas.AuxGen
import Verif.Props.Ecdsa

/-!
# Lemmas about interactive signing: maps, ciphertexts and the states of a run
-/

set_option linter.unusedSectionVars false

namespace Synedrion

open Spec

section Maps
variable {ε I V W : Type} [LinearOrder I]

theorem buildMap_ok {s : Finset I} {f : I → Out ε V} {v : I → V} (h : ∀ i ∈ s, f i = .ok (v i)) : buildMap s f = .ok (BMap.tabulate s v) := by
  unfold buildMap
  rw [Out.mapM'_ok_of_forall (g := fun i => (i, v i)) (fun i hi => by rw [h i (mem_bsetIter.1 hi), Out.bind_ok]), Out.bind_ok, ofList_map_bsetIter]

theorem traverse_list {l : List (I × V)} {f : I → V → Out ε W} {r : List (I × W)}
    (h : Out.mapM' (fun e : I × V => (f e.1 e.2).bind fun w => .ok (e.1, w)) l = .ok r) :
    r.map Prod.fst = l.map Prod.fst ∧ ∀ x ∈ r, ∃ v, (x.1, v) ∈ l ∧ f x.1 v = .ok x.2 := by
  have hf := Out.mapM'_eq_ok_iff.1 h
  clear h
  induction hf with
  | nil => simp
  | cons h1 _ ih =>
    obtain ⟨w, hw, he⟩ := Out.bind_eq_ok.1 h1
    cases he
    refine ⟨by simp [ih.1], ?_⟩
    intro x hx
    rcases List.mem_cons.1 hx with rfl | hx
    · exact ⟨_, List.mem_cons_self, hw⟩
    · obtain ⟨v, hv, hv'⟩ := ih.2 x hx
      exact ⟨v, List.mem_cons_of_mem _ hv, hv'⟩

theorem traverse_eq_ok {m : BMap I V} {f : I → V → Out ε W} {m' : BMap I W} (h : m.traverse f = .ok m') :
    m'.keySet = m.keySet ∧ ∀ i w, m'.get? i = some w → ∃ v, m.get? i = some v ∧ f i v = .ok w := by
  unfold BMap.traverse at h
  obtain ⟨r, hr, he⟩ := Out.bind_eq_ok.1 h
  cases he
  obtain ⟨hk, hall⟩ := traverse_list hr
  have hn : (r.map Prod.fst).Nodup := by rw [hk]; exact m.nodup_keys
  have hget : ∀ i w, (BMap.ofList r).get? i = some w ↔ (i, w) ∈ r := fun i w => BMap.get?_ofList_eq_some hn
  refine ⟨?_, ?_⟩
  · ext i
    rw [BMap.mem_keySet, BMap.mem_keySet, BMap.mem_keys_iff]
    show (∃ v, (BMap.ofList r).get? i = some v) ↔ i ∈ m.entries.map Prod.fst
    rw [← hk]
    simp [hget]
  · intro i w hw
    obtain ⟨v, hv, hv'⟩ := hall _ ((hget i w).1 hw)
    exact ⟨v, BMap.get?_eq_some_iff.2 hv, hv'⟩

theorem traverse_ok {m : BMap I V} {f : I → V → Out ε W} {g : I → V → W} (h : ∀ i v, m.get? i = some v → f i v = .ok (g i v)) :
    m.traverse f = .ok (m.mapVals g) := by
  unfold BMap.traverse
  rw [Out.mapM'_ok_of_forall (g := fun e => (e.1, g e.1 e.2)) (fun e he => by rw [h e.1 e.2 (BMap.get?_eq_some_iff.2 he), Out.bind_ok]), Out.bind_ok]
  exact congrArg Out.ok (BMap.ofList_entries (m.mapVals g))

theorem traverse_tabulate_ok {s : Finset I} {v : I → V} {f : I → V → Out ε W} {w : I → W} (h : ∀ i ∈ s, f i (v i) = .ok (w i)) :
    (BMap.tabulate s v).traverse f = .ok (BMap.tabulate s w) := by
  unfold BMap.traverse BMap.tabulate
  simp only
  rw [Out.mapM'_ok_of_forall (g := fun e => (e.1, w e.1)), Out.bind_ok, List.map_map]
  · exact congrArg Out.ok (ofList_map_bsetIter s w)
  · intro e he
    obtain ⟨i, hi, rfl⟩ := List.mem_map.1 he
    simp only
    rw [h i (mem_bsetIter.1 hi), Out.bind_ok]

theorem buildMap_eq_ok {s : Finset I} {f : I → Out ε V} {m : BMap I V} (h : buildMap s f = .ok m) :
    m.keySet = s ∧ ∀ i v, m.get? i = some v → f i = .ok v := by
  have h' : (BMap.tabulate s fun _ => ()).traverse (fun i _ => f i) = .ok m := by
    rw [← h]
    unfold BMap.traverse buildMap BMap.tabulate
    simp only
    congr 1
    generalize bsetIter s = l
    induction l with
    | nil => rfl
    | cons a l ih => simp only [List.map_cons, Out.mapM', ih]
  obtain ⟨h1, h2⟩ := traverse_eq_ok h'
  refine ⟨by simpa using h1, fun i v hv => ?_⟩
  obtain ⟨_, _, h⟩ := h2 i v hv
  exact h

/-- The sum over a map after inserting a new key. -/
theorem sum_values_insert {M : Type} [AddCommMonoid M] [Inhabited V] (m : BMap I V) {k : I} (hk : k ∉ m.keySet) (v : V) (f : V → M) :
    ((m.insert k v).values.map f).sum = f v + (m.values.map f).sum := by
  obtain ⟨s, hs⟩ : ∃ s, s = m.keySet := ⟨_, rfl⟩
  rw [← hs] at hk
  have hm : m = BMap.tabulate s fun i => (m.get? i).getD default := by rw [hs]; exact BMap.eq_tabulate m
  generalize (fun i => (m.get? i).getD default) = φ at hm
  subst hm
  have hi : (BMap.tabulate s φ).insert k v = BMap.tabulate (Insert.insert k s) (fun i => if i = k then v else φ i) := by
    apply BMap.eq_tabulate_of
    · rw [BMap.keySet_insert, BMap.keySet_tabulate]
    · intro i hi
      rw [BMap.get?_insert, BMap.get?_tabulate]
      by_cases h : i = k
      · simp [h]
      · rcases Finset.mem_insert.1 hi with h' | h'
        · exact absurd h' h
        · simp [h, h']
  rw [hi, BMap.values_tabulate, BMap.values_tabulate, List.map_map, List.map_map, sum_bsetIter, sum_bsetIter, Finset.sum_insert hk]
  simp only [Function.comp_apply, if_true]
  congr 1
  refine Finset.sum_congr rfl fun i hi => ?_
  have hne : i ≠ k := fun h => hk (h ▸ hi)
  rw [if_neg hne]

end Maps

/-! ### Ciphertexts -/

namespace Cipher
variable {ε : Type}

@[simp] theorem under_self (N : Nat) (c : Ct N) : (Cipher.under N ⟨N, c⟩ : Out ε _) = .ok c := by simp [under]

theorem under_eq_ok {N : Nat} {c : Cipher} {d : Ct N} : (c.under N : Out ε _) = .ok d ↔ c = ⟨N, d⟩ := by
  unfold under
  obtain ⟨pk, v⟩ := c
  constructor
  · intro h
    split at h
    · rename_i e
      simp only at e
      subst e
      cases h
      rfl
    · cases h
  · rintro h
    cases h
    simp

theorem ofWire_toWire {N : Nat} (hN : 0 < N) (c : Ct N) : Cipher.ofWire N (Cipher.toWire ⟨N, c⟩) = ⟨N, c⟩ := by
  unfold ofWire toWire
  simp only
  rw [ctWire hN]

/-- The ciphertext encrypts `m` under `N` with some invertible randomness. -/
def Holds (N : Nat) (m : Int) (c : Cipher) : Prop := ∃ u : (ZMod (N ^ 2))ˣ, c = ⟨N, oneAdd N m * (u : Ct N) ^ N⟩

theorem Holds.pk {N : Nat} {m : Int} {c : Cipher} (h : c.Holds N m) : c.pk = N := by obtain ⟨u, rfl⟩ := h; rfl

theorem encrypt_holds {N : Nat} {m : SInt} (hm : m.Fits) {rho : Nat} (hr : Nat.Coprime rho N) :
    ∃ c : Cipher, (∀ ε, (Cipher.encrypt N m rho : Out ε _) = .ok c) ∧ c.Holds N m.val ∧ c = ⟨N, oneAdd N m.val * (rho : Ct N) ^ N⟩ := by
  obtain ⟨u, hu⟩ := natCast_unit_sq hr
  refine ⟨⟨N, oneAdd N m.val * (rho : Ct N) ^ N⟩, fun ε => ?_, ⟨u, by rw [hu]⟩, rfl⟩
  unfold encrypt
  rw [enc_eq hm, Out.bind_ok]

theorem Holds.add {N : Nat} {m n : Int} {c d : Cipher} (hc : c.Holds N m) (hd : d.Holds N n) :
    ∃ e : Cipher, (∀ ε, (c.add d : Out ε _) = .ok e) ∧ e.Holds N (m + n) := by
  obtain ⟨u, rfl⟩ := hc
  obtain ⟨v, rfl⟩ := hd
  refine ⟨⟨N, ctAdd (oneAdd N m * (u : Ct N) ^ N) (oneAdd N n * (v : Ct N) ^ N)⟩, fun ε => by unfold Cipher.add; simp only [under_self, Out.bind_ok], u * v, ?_⟩
  congr 1
  unfold ctAdd
  rw [← oneAdd_mul, Units.val_mul, mul_pow]; ring

theorem Holds.mulSecret {N : Nat} {m : Int} {c : Cipher} (hc : c.Holds N m) {k : SInt} (hk : k.Fits) :
    ∃ e : Cipher, (∀ ε, (c.mulSecret k : Out ε _) = .ok e) ∧ e.Holds N (k.val * m) := by
  obtain ⟨u, rfl⟩ := hc
  refine ⟨⟨N, ((oneAddUnit N m * u ^ N) ^ k.val : (ZMod (N ^ 2))ˣ)⟩, fun ε => ?_, u ^ k.val, ?_⟩
  · unfold Cipher.mulSecret ctMulSecret
    simp only
    have : (oneAdd N m * (u : Ct N) ^ N : Ct N) = ((oneAddUnit N m * u ^ N : (ZMod (N ^ 2))ˣ) : Ct N) := by
      rw [Units.val_mul, Units.val_pow_eq_pow_val, oneAddUnit_val]
    rw [this, powSecret_unit _ hk, Out.bind_ok]
  · congr 1
    rw [mul_zpow, ← oneAddUnit_zpow, Units.val_mul, oneAddUnit_val]
    congr 1
    rw [← Units.val_pow_eq_pow_val]
    congr 1
    rw [← zpow_natCast, ← zpow_natCast, ← zpow_mul, ← zpow_mul, mul_comm]

theorem Holds.decrypt {P : Params} {key : PaillierKey} (hk : KeyFacts key.sk) (hb : key.modulus < 2 ^ P.modBits) (hw : P.modBits ≤ P.uint)
    {m : Int} {c : Cipher} (hc : c.Holds key.modulus m) (hm : 2 * |m| < (key.modulus : Nat)) :
    ∀ ε, (key.decryptCipher P c : Out ε _) = .ok ⟨P.modBits - 1, m⟩ := by
  intro ε
  obtain ⟨u, rfl⟩ := (show c.Holds (key.p * key.q) m from hc)
  unfold PaillierKey.decryptCipher PaillierKey.modulus
  rw [under_self, Out.bind_ok]
  have hc : (oneAdd (key.p * key.q) m * (u : Ct (key.p * key.q)) ^ (key.p * key.q)) ^ key.sk.totient = oneAdd (key.p * key.q) (m * key.sk.totient) := by
    rw [mul_pow, powN_pow_totient hk, mul_one, ← oneAddUnit_val, ← Units.val_pow_eq_pow_val, ← oneAddUnit_pow, oneAddUnit_val]
    congr 1; ring
  obtain ⟨v, hv, hcen⟩ := decrypt_spec (ε := ε) hk hb hw hc
  have : v = m := Props.centred_unique hcen ⟨Int.ModEq.refl _, hm⟩
  rw [this] at hv; exact hv

end Cipher

namespace Signing

variable {q : Nat} [Fact q.Prime] {I Ep G : Type} [LinearOrder I] [AddCommGroup G] [Module (ZMod q) G] [DecidableEq G]

instance : Inhabited (Payload3 q G) := ⟨⟨0, 0, 0⟩⟩

theorem start_eq_ok {E : Env q I Ep G} {epidOf : BMap I G → BMap I PublicAux → Ep} {message : ZMod q} {keyShare : KeyShare I (ZMod q) G}
    {auxInfo : AuxInfo I PaillierKey PublicAux} {id : I} {d : Draws q I} {r : Round1 q I Ep G}
    (h : start E epidOf message keyShare auxInfo id d = .ok r) :
    id = keyShare.owner ∧ id = auxInfo.owner ∧ r.ctx.message = message ∧ r.ctx.myId = id ∧ r.ctx.keyShare = keyShare ∧
      r.ctx.allIds = keyShare.pub.keySet ∧ r.ctx.otherIds = keyShare.pub.keySet.erase id ∧ r.ctx.d = d ∧
      r.ctx.epid = epidOf keyShare.pub auxInfo.pub ∧ r.ctx.key = auxInfo.secret := by
  unfold start at h
  split at h
  · cases h
  · rename_i hne
    push Not at hne
    simp only [Out.bind_eq_ok] at h
    obtain ⟨_, _, _, _, _, _, _, _, _, _, he⟩ := h
    cases he
    exact ⟨hne.1, hne.2, rfl, rfl, rfl, rfl, rfl, rfl, rfl, rfl⟩

theorem toRound2_ok {E : Env q I Ep G} {r : Round1 q I Ep G} {in1 : List (I × Msg1 q G)} {r2 : Round2 q I Ep G} (h : toRound2 E r in1 = .ok r2) :
    r2.ctx = r.ctx := by
  unfold toRound2 finalize1 at h
  simp only [Out.bind_eq_ok, finalizeResult_eq_ok] at h
  obtain ⟨_, _, _, _, _, _, _, _, _, _, _, _, he⟩ := h
  cases he
  rfl

/-- What a party's own round 3 message is made of -/
structure OwnMsg3 (r : Round3 q I Ep G) : Prop where
  capDelta : r.msg.capDelta = r.ctx.d.k • r.capGammaCombined
  capS : r.msg.capS = r.chi • r.capGammaCombined

theorem toRound3_ok {E : Env q I Ep G} {r : Round1 q I Ep G} {in1 : List (I × Msg1 q G)} {in2 : List (I × Msg2 q I G)} {r3 : Round3 q I Ep G}
    (h : toRound3 E r in1 in2 = .ok r3) : r3.ctx = r.ctx ∧ OwnMsg3 r3 := by
  unfold toRound3 finalize2 at h
  simp only [Out.bind_eq_ok, finalizeResult_eq_ok] at h
  obtain ⟨r2, h2, _, _, _, _, he⟩ := h
  cases he
  exact ⟨toRound2_ok h2, ⟨rfl, rfl⟩⟩

/-- What makes a party enter round 4, and what it knows then. -/
theorem finalize3_round4 {E : Env q I Ep G} {r : Round3 q I Ep G} (hown : OwnMsg3 r) {payloads : BMap I (Payload3 q G)} {r4 : Round4 q I Ep G}
    (hme : r.ctx.myId ∉ payloads.keySet) (h : finalize3 E r payloads = .ok (.round4 r4)) :
    ∃ delta : ZMod q, delta = r.msg.delta + (payloads.values.map fun p => p.delta).sum ∧ delta ≠ 0 ∧
      delta • E.C.g = r.ctx.d.k • r.capGammaCombined + (payloads.values.map fun p => p.capDelta).sum ∧
      r.chi • r.capGammaCombined + (payloads.values.map fun p => p.capS).sum = delta • verifyingKeyPoint r.ctx.keyShare ∧
      r4.ctx = r.ctx ∧ r4.capGammaCombined = r.capGammaCombined ∧
      r4.sigma = r.ctx.d.k * delta⁻¹ * r.ctx.message + r.chi * delta⁻¹ * E.C.xCoordinate q r.capGammaCombined ∧
      r4.tildeCapDeltas = (payloads.insert r.ctx.myId r.msg.payload).mapVals (fun _ p => delta⁻¹ • p.capDelta) ∧
      r4.tildeCapSs = (payloads.insert r.ctx.myId r.msg.payload).mapVals (fun _ p => delta⁻¹ • p.capS) := by
  unfold finalize3 at h
  simp only [sum_values_insert payloads hme] at h
  split at h
  · cases h
  · rename_i h1
    split at h
    · cases h
    · rename_i h2
      split at h
      · cases h
      · rename_i h3
        cases h
        simp only [ne_eq, not_not, Msg3.payload] at h1 h2 h3
        rw [hown.capDelta] at h1
        rw [hown.capS] at h2
        exact ⟨_, rfl, h3, h1, h2, rfl, rfl, rfl, rfl, rfl⟩

theorem toRound4_ok {E : Env q I Ep G} {r : Round1 q I Ep G} {in1 : List (I × Msg1 q G)} {in2 : List (I × Msg2 q I G)} {in3 : List (I × Msg3 q G)}
    {a : After3 q I Ep G} (h : toRound4 E r in1 in2 in3 = .ok a) :
    ∃ (r3 : Round3 q I Ep G) (payloads : BMap I (Payload3 q G)), toRound3 E r in1 in2 = .ok r3 ∧ r3.ctx = r.ctx ∧ OwnMsg3 r3 ∧
      collect r.ctx.otherIds (recv3 E r3) in3 = .ok payloads ∧ finalize3 E r3 payloads = .ok a := by
  unfold toRound4 at h
  simp only [Out.bind_eq_ok, finalizeResult_eq_ok] at h
  obtain ⟨r3, h3, pl, hc, hf⟩ := h
  obtain ⟨hctx, hown⟩ := toRound3_ok h3
  rw [hctx] at hc
  exact ⟨r3, pl, h3, hctx, hown, hc, hf⟩

/-- The equation that the share assembled in round 4 satisfies, whatever messages were received: every accepted share satisfies its own equation, and round 3
checked the sums. -/
theorem assembled_equation {E : Env q I Ep G} {epidOf : BMap I G → BMap I PublicAux → Ep} {message : ZMod q} {keyShare : KeyShare I (ZMod q) G}
    {auxInfo : AuxInfo I PaillierKey PublicAux} {me : I} {d : Draws q I} {r : Round1 q I Ep G} (hr : start E epidOf message keyShare auxInfo me d = .ok r)
    {in1 : List (I × Msg1 q G)} {in2 : List (I × Msg2 q I G)} {in3 : List (I × Msg3 q G)} {in4 : List (I × ZMod q)}
    {r4 : Round4 q I Ep G} (h3 : toRound4 E r in1 in2 in3 = .ok (.round4 r4))
    {shares : BMap I (ZMod q)} (h4 : collect r4.ctx.otherIds (recv4 E r4) in4 = .ok shares) :
    r4.ctx = r.ctx ∧ (shares.values.sum + r4.sigma) • r4.capGammaCombined =
      message • E.C.g + E.C.xCoordinate q r4.capGammaCombined • keyShare.pub.values.sum := by
  obtain ⟨_, _, hmsg, hid, hks, hall, hoth, _⟩ := start_eq_ok hr
  obtain ⟨r3, pl3, h3', hctx3, hown, hc3, hf3⟩ := toRound4_ok h3
  obtain ⟨nd3, to3, ks3, -⟩ := collect_eq_ok.1 hc3
  have hme : r3.ctx.myId ∉ pl3.keySet := by
    rw [ks3, hctx3, hid, hoth]; simp
  obtain ⟨delta, -, hd0, hD, hS, hctx4, hgam, hsig, htD, htS⟩ := finalize3_round4 hown hme hf3
  obtain ⟨nd4, to4, ks4, all4⟩ := collect_eq_ok.1 h4
  rw [hctx4, hctx3] at ks4 to4
  set X := keyShare.pub.values.sum with hX
  have hXk : verifyingKeyPoint r3.ctx.keyShare = X := by rw [hctx3, hks]; rfl
  rw [hXk] at hS
  set capG := r4.capGammaCombined with hcapG
  rw [← hgam] at hD hS hsig
  set nonce := E.C.xCoordinate q capG with hnonce
  set m := message with hm
  have hmsg3 : r3.ctx.message = m := by rw [hctx3, hmsg]
  rw [hmsg3] at hsig
  -- every accepted share satisfies its equation
  have hshare : ∀ i ∈ r.ctx.otherIds, ∃ (s : ZMod q) (p : Payload3 q G), shares.get? i = some s ∧ pl3.get? i = some p ∧
      s • capG = m • delta⁻¹ • p.capDelta + nonce • delta⁻¹ • p.capS := by
    intro i hi
    rw [← to4, List.mem_toFinset, List.mem_map] at hi
    obtain ⟨a, ha, rfl⟩ := hi
    obtain ⟨s, hrecv, hget⟩ := all4 a ha
    have hi : a.1 ∈ r.ctx.otherIds := by rw [← to4, List.mem_toFinset, List.mem_map]; exact ⟨a, ha, rfl⟩
    have hne : a.1 ≠ r3.ctx.myId := by
      rw [hctx3, hid]; rw [hoth] at hi; exact (Finset.mem_erase.1 hi).1
    obtain ⟨p, hp⟩ : ∃ p, pl3.get? a.1 = some p := by
      rw [← BMap.mem_keys_iff, ← BMap.mem_keySet, ks3]; exact hi
    refine ⟨s, p, hget, hp, ?_⟩
    have hins : (pl3.insert r3.ctx.myId r3.msg.payload).get? a.1 = some p := by rw [BMap.get?_insert, if_neg hne, hp]
    unfold recv4 at hrecv
    simp only [recvGet, htD, htS, BMap.get?_mapVals, hins, Option.map_some, Out.ofOption_some, Out.bind_ok] at hrecv
    split at hrecv
    · cases hrecv
    · rename_i h
      cases hrecv
      rw [ne_eq, not_not, hctx4, hmsg3] at h
      exact h
  have hsum : shares.values.sum • capG = m • delta⁻¹ • (pl3.values.map fun p => p.capDelta).sum + nonce • delta⁻¹ • (pl3.values.map fun p => p.capS).sum := by
    have hsh : shares = BMap.tabulate r.ctx.otherIds fun i => (shares.get? i).getD default := by rw [← ks4]; exact BMap.eq_tabulate shares
    have hpl : pl3 = BMap.tabulate r.ctx.otherIds fun i => (pl3.get? i).getD default := by rw [← ks3]; exact BMap.eq_tabulate pl3
    have e1 : shares.values.sum = ∑ i ∈ r.ctx.otherIds, (shares.get? i).getD default := by
      conv_lhs => rw [hsh]
      exact BMap.sum_values_tabulate _ _
    have e2 : ∀ f : Payload3 q G → G, (pl3.values.map f).sum = ∑ i ∈ r.ctx.otherIds, f ((pl3.get? i).getD default) := by
      intro f
      conv_lhs => rw [hpl]
      rw [BMap.values_tabulate, List.map_map, sum_bsetIter]
      rfl
    rw [e1, e2, e2, Finset.sum_smul, Finset.smul_sum, Finset.smul_sum, Finset.smul_sum, Finset.smul_sum, ← Finset.sum_add_distrib]
    refine Finset.sum_congr rfl fun i hi => ?_
    obtain ⟨s, p, h1, h2, h3⟩ := hshare i hi
    rw [h1, h2]
    exact h3
  have hD' : (pl3.values.map fun p => p.capDelta).sum = delta • E.C.g - r3.ctx.d.k • capG := by rw [hD]; abel
  have hS' : (pl3.values.map fun p => p.capS).sum = delta • X - r3.chi • capG := by rw [← hS]; abel
  set s := shares.values.sum + r4.sigma with hsdef
  have hkeyeq : s • capG = m • E.C.g + nonce • X := by
    rw [hsdef, add_smul, hsum, hsig, hD', hS']
    have e : m • delta⁻¹ • (delta • E.C.g - r3.ctx.d.k • capG) + nonce • delta⁻¹ • (delta • X - r3.chi • capG) +
        (r3.ctx.d.k * delta⁻¹ * m + r3.chi * delta⁻¹ * nonce) • capG = (delta⁻¹ * delta) • m • E.C.g + (delta⁻¹ * delta) • nonce • X := by module
    rw [e, inv_mul_cancel₀ hd0, one_smul, one_smul]
  exact ⟨hctx4.trans hctx3, hkeyeq⟩

end Signing
end Synedrion
