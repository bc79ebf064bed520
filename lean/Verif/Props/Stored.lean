import Verif.Model.Stored
import Verif.Props.CurveBytes
import Verif.Props.KeyGen
import Verif.Lemmas.ToySigning

/-!
# C77: key material survives storage
-/

set_option linter.unusedSectionVars false

namespace Synedrion.Props

open Spec

section
variable {ε I G : Type} [LinearOrder I] {q n : Nat}

private theorem loadEntries_map {V W X : Type} (f : V → Option W) (enc : X → V) (dec : X → W) (l : List (I × X)) (h : ∀ p ∈ l, f (enc p.2) = some (dec p.2)) :
    loadEntries f (l.map fun p => (p.1, enc p.2)) = some (l.map fun p => (p.1, dec p.2)) := by
  induction l with
  | nil => rfl
  | cons p l ih =>
    simp only [List.map_cons, loadEntries, h p (List.mem_cons_self ..), Option.bind_some, ih fun p hp => h p (List.mem_cons_of_mem _ hp), Option.map_some]

private theorem loadMap_store {V W : Type} (f : V → Option W) (enc : W → V) (m : BMap I W) (h : ∀ i w, m.get? i = some w → f (enc w) = some w) :
    loadMap f (m.entries.map fun p => (p.1, enc p.2)) = some m := by
  unfold loadMap
  rw [loadEntries_map f enc id m.entries fun p hp => h p.1 p.2 (BMap.get?_eq_some_iff.2 hp)]
  simp [BMap.ofList_entries]

variable [AddCommGroup G]

private theorem storePoints_ok {S : Sec1 G} (hS : Sec1Laws S) (m : BMap I G) (h : ∀ i X, m.get? i = some X → X ≠ 0) :
    (storePoints S m : Out ε _) = .ok (m.entries.map fun p => (p.1, S.encode p.2)) ∧
      loadMap (pointTryFromBytes S) (m.entries.map fun p => (p.1, S.encode p.2)) = some m := by
  refine ⟨?_, loadMap_store _ S.encode m fun i X _ => hS.decode X⟩
  refine Out.mapM'_ok_of_forall (g := fun p : I × G => (p.1, S.encode p.2)) fun p hp => ?_
  rw [pointToBytes, if_pos (hS.compressed _ (h p.1 p.2 (BMap.get?_eq_some_iff.2 hp)))]
  rfl

private theorem mapM'_panic {α β : Type} {f : α → Out ε β} {l : List α} (h1 : ∀ a ∈ l, (∃ b, f a = .ok b) ∨ f a = .panic) : Out.mapM' f l = .panic ↔ ∃ a ∈ l, f a = .panic := by
  induction l with
  | nil => simp [Out.mapM']
  | cons a l ih =>
    have ih := ih fun a ha => h1 a (List.mem_cons_of_mem _ ha)
    rcases h1 a (List.mem_cons_self ..) with ⟨b, hb⟩ | hb
    · simp only [Out.mapM', hb, Out.bind_ok, List.exists_mem_cons_iff, reduceCtorEq, false_or]
      rw [← ih]
      cases Out.mapM' f l <;> simp [Out.bind]
    · simp only [Out.mapM', hb, List.exists_mem_cons_iff, true_or, iff_true]
      rfl

private theorem storePoints_panic {S : Sec1 G} (hS : Sec1Laws S) (m : BMap I G) : (storePoints S m : Out ε _) = .panic ↔ ∃ i, m.get? i = some 0 := by
  unfold storePoints
  rw [mapM'_panic]
  · constructor
    · rintro ⟨p, hp, h⟩
      have h0 : p.2 = 0 := by
        refine (C58_point_panics_iff (ε := ε) hS p.2).1 ?_
        cases e : (pointToBytes S p.2 : Out ε _) with
        | ok b => rw [e] at h; cases h
        | err b => rw [e] at h; cases h
        | panic => rfl
      exact ⟨p.1, by rw [← h0]; exact BMap.get?_eq_some_iff.2 hp⟩
    · rintro ⟨i, hi⟩
      refine ⟨(i, 0), BMap.get?_eq_some_iff.1 hi, ?_⟩
      rw [(C58_identity_not_encodable (ε := ε) hS).2]; rfl
  · intro p _
    unfold pointToBytes
    split
    · exact .inl ⟨_, rfl⟩
    · exact .inr rfl

/-- **C77 (key shares).** A key share none of whose public shares is the identity is stored, and what is read back is the same share. The same holds for the change made by a
refresh and for threshold shares. Missing for the full property: shares with an identity among the public ones, see `C77_identity_share_panics`. -/
theorem C77_stored_shares_partial {S : Sec1 G} (hS : Sec1Laws S) (hq : 0 < q) (hn : q ≤ 2 ^ (8 * n)) :
    (∀ ks : KeyShare I (ZMod q) G, (∀ i X, ks.pub.get? i = some X → X ≠ 0) → ∃ b, (ks.store n S : Out ε _) = .ok b ∧ b.load n q S = some ks) ∧
    (∀ c : KeyShareChange I (ZMod q) G, (∀ i X, c.publicShareChanges.get? i = some X → X ≠ 0) → ∃ b, (c.store n S : Out ε _) = .ok b ∧ b.loadChange n q S = some c) ∧
    (∀ ks : ThresholdKeyShare I (ZMod q) G, (∀ i X, ks.publicShares.get? i = some X → X ≠ 0) → ∃ b, (ks.store n S : Out ε _) = .ok b ∧ b.load n q S = some ks) := by
  refine ⟨fun ks h => ?_, fun c h => ?_, fun ks h => ?_⟩
  · obtain ⟨h1, h2⟩ := storePoints_ok (ε := ε) hS ks.pub h
    refine ⟨_, by rw [KeyShare.store, h1]; rfl, ?_⟩
    simp only [KeyShareBytes.load]
    rw [(C58_scalar_round_trip hq hn ks.secret).2, Option.bind_some, h2]; rfl
  · obtain ⟨h1, h2⟩ := storePoints_ok (ε := ε) hS c.publicShareChanges h
    refine ⟨_, by rw [KeyShareChange.store, h1]; rfl, ?_⟩
    simp only [KeyShareBytes.loadChange]
    rw [(C58_scalar_round_trip hq hn c.secretShareChange).2, Option.bind_some, h2]; rfl
  · obtain ⟨h1, h2⟩ := storePoints_ok (ε := ε) hS ks.publicShares h
    refine ⟨_, by rw [ThresholdKeyShare.store, h1]; rfl, ?_⟩
    simp only [ThresholdKeyShareBytes.load]
    rw [(C58_scalar_round_trip hq hn ks.secretShare).2, Option.bind_some,
      loadMap_store (scalarTryFromBytes n q) (scalarToBytes n) ks.shareIds fun i x _ => (C58_scalar_round_trip hq hn x).2, Option.bind_some, h2]
    rfl

/-- **C77 is false for the identity.** Storing a key share panics exactly if one of the public shares is the identity. -/
theorem C77_identity_share_panics {S : Sec1 G} (hS : Sec1Laws S) (ks : KeyShare I (ZMod q) G) (c : KeyShareChange I (ZMod q) G) (tks : ThresholdKeyShare I (ZMod q) G) :
    ((ks.store n S : Out ε _) = .panic ↔ ∃ i, ks.pub.get? i = some 0) ∧ ((c.store n S : Out ε _) = .panic ↔ ∃ i, c.publicShareChanges.get? i = some 0) ∧
      ((tks.store n S : Out ε _) = .panic ↔ ∃ i, tks.publicShares.get? i = some 0) := by
  refine ⟨?_, ?_, ?_⟩
  · rw [← storePoints_panic (ε := ε) hS, KeyShare.store]
    cases (storePoints S ks.pub : Out ε _) <;> simp [Out.bind]
  · rw [← storePoints_panic (ε := ε) hS, KeyShareChange.store]
    cases (storePoints S c.publicShareChanges : Out ε _) <;> simp [Out.bind]
  · rw [← storePoints_panic (ε := ε) hS, ThresholdKeyShare.store]
    cases (storePoints S tks.publicShares : Out ε _) <;> simp [Out.bind]

end

section
variable {ε I : Type} [LinearOrder I]

private theorem nat_round_trip {n v : Nat} (h : v < 256 ^ n) : natTryFromBytes n (beBytes n v) = some v := by
  rw [natTryFromBytes, if_neg (by simp), fromBe_beBytes, Nat.mod_eq_of_lt h]

private theorem aux_round_trip {n : Nat} {x : PublicAux} (hx : x.pk < 256 ^ n ∧ x.rp.modulus < 256 ^ n ∧ x.rp.baseRandomizer < 256 ^ n ∧ x.rp.baseValue < 256 ^ n) :
    (x.store n).load n = some x := by
  obtain ⟨k1, k2, k3, k4⟩ := hx
  simp only [PublicAux.store, PublicAuxBytes.load]
  rw [nat_round_trip k1, nat_round_trip k2, nat_round_trip k3, nat_round_trip k4]
  rfl

/-- All numbers of a party's auxiliary data fit into their fields. -/
def AuxFits (h n : Nat) (a : AuxInfo I PaillierKey PublicAux) : Prop :=
  a.secret.p < 256 ^ h ∧ a.secret.q < 256 ^ h ∧
    ∀ i x, a.pub.get? i = some x → x.pk < 256 ^ n ∧ x.rp.modulus < 256 ^ n ∧ x.rp.baseRandomizer < 256 ^ n ∧ x.rp.baseValue < 256 ^ n

/-- **C77 (auxiliary info).** What is read back is the same auxiliary info; the secret key expanded from the stored primes is the one before. -/
theorem C77_stored_aux_info (h n : Nat) (a : AuxInfo I PaillierKey PublicAux) (hfit : AuxFits h n a) (hsk : (SecretKey.new a.secret.p a.secret.q : Out ε _) = .ok a.secret.sk) :
    ∃ b, (a.store h n).load h n = some b ∧ (b.expand : Out ε _) = .ok a := by
  obtain ⟨h1, h2, h3⟩ := hfit
  refine ⟨⟨a.owner, (a.secret.p, a.secret.q), a.pub⟩, ?_, ?_⟩
  · simp only [AuxInfo.store, AuxInfoBytes.load]
    rw [nat_round_trip h1, nat_round_trip h2, Option.bind_some, Option.bind_some,
      loadMap_store (PublicAuxBytes.load n) (PublicAux.store n) a.pub]
    · rfl
    · exact fun i x hx => aux_round_trip (h3 i x hx)
  · simp only [AuxInfo.expand]
    rw [hsk]; rfl

/-- **C77 (auxiliary info in use).** Every auxiliary info the protocols can produce survives storage. -/
theorem C77_usable_aux_info {P : Params} {ids : Finset I} {infos : I → AuxInfo I PaillierKey PublicAux} {setup : I → RPSetup} (hU : UsableAux P ids infos setup)
    {h n : Nat} (hh : P.primeBits ≤ 8 * h) (hn : 2 * P.primeBits ≤ 8 * n) (hn' : P.modBits ≤ 8 * n) (i : I) (hi : i ∈ ids) :
    ∃ b, ((infos i).store h n).load h n = some b ∧ (b.expand : Out Unit _) = .ok (infos i) := by
  have e : ∀ m : Nat, 256 ^ m = 2 ^ (8 * m) := fun m => by rw [show 256 = 2 ^ 8 by norm_num, ← Nat.pow_mul]
  refine C77_stored_aux_info h n _ ⟨?_, ?_, ?_⟩ (hU.secretKey i hi)
  · rw [e]; exact (hU.primes i hi).highP.trans_le (Nat.pow_le_pow_right (by norm_num) hh)
  · rw [e]; exact (hU.primes i hi).highQ.trans_le (Nat.pow_le_pow_right (by norm_num) hh)
  · intro j x hx
    have hj : j ∈ ids := by
      rw [← hU.consistent.holders i hi, BMap.mem_keySet, BMap.mem_keys_iff]; exact ⟨_, hx⟩
    rw [hU.consistent.public_agree i hi j hj] at hx
    cases hx
    have hsz := hU.rpSize j hj
    have hle : 2 ^ P.modBits ≤ 256 ^ n := by rw [e]; exact Nat.pow_le_pow_right (by norm_num) hn'
    have hodd := hU.rpOdd j hj
    have : NeZero (setup j).modulus := ⟨by rintro h0; rw [h0] at hodd; cases hodd⟩
    refine ⟨?_, hsz.trans_le hle, ((ZMod.val_lt _).trans hsz).trans_le hle, ((ZMod.val_lt _).trans hsz).trans_le hle⟩
    have hp := (hU.primes j hj).highP
    have hq := (hU.primes j hj).highQ
    calc _ < 2 ^ P.primeBits * 2 ^ P.primeBits := Nat.mul_lt_mul'' hp hq
      _ = 2 ^ (2 * P.primeBits) := by rw [← pow_add]; congr 1; omega
      _ ≤ _ := by rw [e]; exact Nat.pow_le_pow_right (by norm_num) hn

/-- **C77 is false for damaged secrets.** The primes are not checked when auxiliary info is read: twice the same prime, or zero, is loaded, and the first use panics. -/
theorem C77_bad_primes_load (h n : Nat) (a : AuxInfo I PaillierKey PublicAux) (hfit : AuxFits h n a) (p : Nat) (hp : p.Prime) (hlt : p < 256 ^ h) :
    (∃ b, ({ a.store h n with p := beBytes h p, q := beBytes h p } : AuxInfoBytes I).load h n = some b ∧ (b.expand : Out ε _) = .panic) ∧
      ∃ b, ({ a.store h n with p := beBytes h 0 } : AuxInfoBytes I).load h n = some b ∧ (b.expand : Out ε _) = .panic := by
  have hpub : loadMap (PublicAuxBytes.load n) (a.store h n).pub = some a.pub := loadMap_store _ (PublicAux.store n) a.pub fun i x hx => aux_round_trip (hfit.2.2 i x hx)
  have h0 : (0 : Nat) < 256 ^ h := by positivity
  refine ⟨⟨⟨a.owner, (p, p), a.pub⟩, ?_, ?_⟩, ⟨⟨a.owner, (0, a.secret.q), a.pub⟩, ?_, ?_⟩⟩
  · simp only [AuxInfoBytes.load]
    rw [nat_round_trip hlt, Option.bind_some, Option.bind_some, hpub]; rfl
  · simp only [AuxInfo.expand]
    rw [C68_equal_primes_panic p hp]; rfl
  · simp only [AuxInfoBytes.load]
    rw [nat_round_trip h0, Option.bind_some, AuxInfo.store, nat_round_trip hfit.2.1, Option.bind_some]
    rw [AuxInfo.store] at hpub
    rw [hpub]; rfl
  · simp only [AuxInfo.expand]
    rw [SecretKey.new, if_pos (.inl rfl)]; rfl

end

section
variable {ε I G : Type} [LinearOrder I] {q n : Nat} [Fact q.Prime] [AddCommGroup G] [Module (ZMod q) G] [DecidableEq G]

/-- **C77 is false for inconsistent shares.** Reading a key share checks nothing but the encodings. Whatever is put in place of the secret is accepted, with the same public shares, so
the loaded share need not belong to them; the owner may be anybody, also somebody without a public share; and public shares that add up to the identity are accepted although
`KeyShare::new` refuses them, so that asking for the verifying key panics. -/
theorem C77_inconsistent_loads {S : Sec1 G} (hS : Sec1Laws S) (hn : q ≤ 2 ^ (8 * n)) :
    (∀ (ks : KeyShare I (ZMod q) G) (b : KeyShareBytes I) (secret : ZMod q) (owner : I), (ks.store n S : Out ε _) = .ok b →
      ({ b with owner := owner, secret := scalarToBytes n secret } : KeyShareBytes I).load n q S = some ⟨owner, secret, ks.pub⟩) ∧
    (∀ (owner : I) (secret : ZMod q) (pub : BMap I G), (∀ i X, pub.get? i = some X → X ≠ 0) → pub.values.sum = 0 →
      ∃ b : KeyShareBytes I, b.load n q S = some ⟨owner, secret, pub⟩ ∧ (KeyShare.verifyingKey ⟨owner, secret, pub⟩ : Out ε _) = .panic ∧
        KeyShare.new owner secret pub = .err .zeroSum) := by
  have hq : 0 < q := (Fact.out : q.Prime).pos
  refine ⟨fun ks b secret owner h => ?_, fun owner secret pub h h0 => ?_⟩
  · have hnz : ∀ i X, ks.pub.get? i = some X → X ≠ 0 := by
      rintro i X hX rfl
      have := (C77_identity_share_panics (ε := ε) (n := n) hS ks ⟨ks.owner, 0, BMap.ofList []⟩ ⟨ks.owner, 0, 0, BMap.ofList [], BMap.ofList []⟩).1.2 ⟨i, hX⟩
      rw [this] at h; cases h
    obtain ⟨h1, h2⟩ := storePoints_ok (ε := ε) hS ks.pub hnz
    rw [KeyShare.store, h1] at h
    cases h
    simp only [KeyShareBytes.load]
    rw [(C58_scalar_round_trip hq hn secret).2, Option.bind_some, h2]; rfl
  · obtain ⟨b, -, hb⟩ := (C77_stored_shares_partial (ε := ε) (I := I) hS hq hn).1 ⟨owner, secret, pub⟩ h
    refine ⟨b, hb, ?_, ?_⟩
    · simp only [KeyShare.verifyingKey, KeyShare.verifyingKeyAsPoint, toVerifyingKey, h0, if_true]; rfl
    · simp only [KeyShare.new, h0, if_true]

end

/-! ### The cases exist -/

section Examples
attribute [local instance] Toy.fact11 Toy.order11

private def storedShare (pub : List (Nat × ZMod 11)) : KeyShare Nat (ZMod 11) (ZMod 11) := ⟨1, 4, BMap.ofList pub⟩

example : ∃ b, ((storedShare [(1, 4), (2, 9)]).store 1 Toy.sec1 : Out Unit _) = .ok b ∧ b.load 1 11 Toy.sec1 = some (storedShare [(1, 4), (2, 9)]) :=
  (C77_stored_shares_partial (n := 1) (q := 11) Toy.sec1_laws (by decide) (by decide)).1 _ (by
    intro i X h
    have := BMap.get?_eq_some_iff.1 h
    revert this
    rw [show (storedShare [(1, 4), (2, 9)]).pub.entries = [(1, 4), (2, 9)] by decide +kernel]
    simp only [List.mem_cons, Prod.mk.injEq, List.not_mem_nil, or_false]
    rintro (⟨-, rfl⟩ | ⟨-, rfl⟩) <;> decide)

example : ∃ infos : Nat → AuxInfo Nat PaillierKey PublicAux, ∃ b, ((infos 2).store 16 32).load 16 32 = some b ∧ (b.expand : Out Unit _) = .ok (infos 2) := by
  obtain ⟨infos, hU, -⟩ := Toy.exists_signInfos
  exact ⟨infos, C77_usable_aux_info hU (by decide) (by decide) (by decide) 2 (by decide)⟩

/-- Dealt shares with an identity among them: the parts drawn are not zero, but the last one is what remains. They are a proper sharing of the key 4 and cannot be stored. -/
example : ∃ m ks, KeyShare.newCentralized (1 : ZMod 11) ({1, 2} : Finset Nat) (4 : ZMod 11) (fun _ => 4) = .ok m ∧ m.get? 1 = some ks ∧
    (ks.store 1 Toy.sec1 : Out Unit _) = .panic := by
  refine ⟨BMap.ofList [(1, ⟨1, 4, BMap.ofList [(1, 4), (2, 0)]⟩), (2, ⟨2, 0, BMap.ofList [(1, 4), (2, 0)]⟩)], ⟨1, 4, BMap.ofList [(1, 4), (2, 0)]⟩, ?_, ?_, ?_⟩
  · decide +kernel
  · decide +kernel
  · exact (C77_identity_share_panics Toy.sec1_laws ⟨1, 4, BMap.ofList [(1, 4), (2, 0)]⟩ ⟨1, 4, BMap.ofList []⟩ ⟨1, 1, 4, BMap.ofList [], BMap.ofList []⟩).1.2
      ⟨2, by decide +kernel⟩

/-- Public shares that add up to the identity. -/
example : (storedShare [(1, 4), (2, 7)]).pub.values.sum = 0 ∧ KeyShare.new (F := ZMod 11) 1 4 (storedShare [(1, 4), (2, 7)]).pub = .err .zeroSum := by decide +kernel

end Examples
end Synedrion.Props
