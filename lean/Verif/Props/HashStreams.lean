import Verif.Spec.HashStreams
import Verif.Lemmas.Encoding
import Verif.Lemmas.BMap

/-!
# C65: different things are never hashed as the same bytes
-/

set_option linter.unusedSectionVars false

namespace Synedrion.Props

open Spec

section Codecs
variable {α β : Type}

private theorem sd_pair {c : Codec α} {d : Codec β} (hc : SelfDelimiting c) (hd : SelfDelimiting d) : SelfDelimiting (c.pair d) := by
  rintro ⟨a, a'⟩ ⟨b, b'⟩ x y ⟨h1, h2⟩ ⟨h3, h4⟩ h
  simp only [Codec.pair, List.append_assoc] at h
  obtain ⟨e1, h⟩ := hc _ _ _ _ h1 h3 h
  obtain ⟨e2, h⟩ := hd _ _ _ _ h2 h4 h
  exact ⟨Prod.ext e1 e2, h⟩

private theorem sd_via {c : Codec β} {f : α → β} (hc : SelfDelimiting c) (hf : ∀ a b, f a = f b → a = b) : SelfDelimiting (c.via f) := by
  intro a b x y h1 h2 h
  obtain ⟨e, h⟩ := hc _ _ _ _ h1 h2 h
  exact ⟨hf _ _ e, h⟩

private theorem sd_elems {c : Codec α} (hc : SelfDelimiting c) : ∀ (l l' : List α), l.length = l'.length → (∀ x ∈ l, c.ok x) → (∀ x ∈ l', c.ok x) → ∀ x y,
    (l.map c.write).flatten ++ x = (l'.map c.write).flatten ++ y → l = l' ∧ x = y := by
  intro l
  induction l with
  | nil =>
    intro l' hl _ _ x y h
    cases l' with
    | nil => exact ⟨rfl, by simpa using h⟩
    | cons => simp at hl
  | cons a l ih =>
    intro l' hl h1 h2 x y h
    cases l' with
    | nil => simp at hl
    | cons b l' =>
      simp only [List.map_cons, List.flatten_cons, List.append_assoc] at h
      obtain ⟨e1, h⟩ := hc _ _ _ _ (h1 a (by simp)) (h2 b (by simp)) h
      obtain ⟨e2, h⟩ := ih l' (by simpa using hl) (fun z hz => h1 z (by simp [hz])) (fun z hz => h2 z (by simp [hz])) _ _ h
      exact ⟨by rw [e1, e2], h⟩

private theorem sd_seq {len : Codec Nat} {c : Codec α} (hl : SelfDelimiting len) (hc : SelfDelimiting c) : SelfDelimiting (Codec.seq len c) := by
  rintro a b x y ⟨h1, h2⟩ ⟨h3, h4⟩ h
  simp only [Codec.seq, List.append_assoc] at h
  obtain ⟨e1, h⟩ := hl _ _ _ _ h1 h3 h
  exact sd_elems hc a b e1 h2 h4 _ _ h

private theorem sd_bmap [LinearOrder α] {len : Codec Nat} {c : Codec α} {d : Codec β} (hl : SelfDelimiting len) (hc : SelfDelimiting c) (hd : SelfDelimiting d) :
    SelfDelimiting (Codec.bmap len c d) := by
  refine sd_via (sd_seq hl (sd_pair hc hd)) ?_
  rintro ⟨a, _⟩ ⟨b, _⟩ h
  cases h; rfl

private theorem sd_bset [LinearOrder α] {len : Codec Nat} {c : Codec α} (hl : SelfDelimiting len) (hc : SelfDelimiting c) : SelfDelimiting (Codec.bset len c) := by
  refine sd_via (sd_seq hl hc) ?_
  intro a b h
  exact Finset.ext fun k => by rw [← mem_bsetIter, h, mem_bsetIter]

private theorem sd_framed : SelfDelimiting Codec.framed := by
  intro a b x y ha hb h
  simp only [Codec.framed, List.append_assoc] at h ha hb
  obtain ⟨h1, h2⟩ := List.append_inj h (by simp)
  rw [Nat.mod_eq_of_lt ha, Nat.mod_eq_of_lt hb] at h1
  have h256 : (256 : Nat) ^ 8 = 2 ^ 64 := by norm_num
  have hlen : a.length = b.length := beBytes_inj (by omega) (by omega) h1
  exact List.append_inj h2 hlen

private theorem sd_framed32 : SelfDelimiting Codec.framed32 := by
  intro a b x y ha hb h
  simp only [Codec.framed32] at h ha hb
  have h256 : (256 : Nat) ^ 4 = 2 ^ 32 := by norm_num
  obtain ⟨e, h⟩ := sd_framed _ _ _ _ (by simp [Codec.framed]) (by simp [Codec.framed]) h
  exact ⟨beBytes_inj (by omega) (by omega) e, h⟩

theorem leBytes_length (n v : Nat) : (leBytes n v).length = n := by
  induction n generalizing v with
  | zero => rfl
  | succ n ih => simp [leBytes, ih]

theorem leBytes_add (m n v : Nat) : leBytes (m + n) v = leBytes m v ++ leBytes n (v / 256 ^ m) := by
  induction m generalizing v with
  | zero => simp [leBytes]
  | succ m ih =>
    rw [Nat.succ_add, leBytes, leBytes, ih, List.cons_append, pow_succ, mul_comm, Nat.div_div_eq_div_mul]

theorem leBytes_mod (n v : Nat) : leBytes n (v % 256 ^ n) = leBytes n v := by
  induction n generalizing v with
  | zero => rfl
  | succ n ih =>
    rw [leBytes, leBytes]
    congr 1
    · apply BitVec.eq_of_toNat_eq
      simp only [BitVec.toNat_ofNat]
      rw [pow_succ, mul_comm]
      exact Nat.mod_mul_right_mod v 256 (256 ^ n)
    · rw [← ih (v / 256), pow_succ, mul_comm, Nat.mod_mul_right_div_self]

theorem leBytes_inj : ∀ (n a b : Nat), a < 256 ^ n → b < 256 ^ n → leBytes n a = leBytes n b → a = b := by
  intro n
  induction n with
  | zero => intro a b ha hb _; simp at ha hb; omega
  | succ n ih =>
    intro a b ha hb h
    simp only [leBytes, List.cons.injEq] at h
    have h1 := congrArg BitVec.toNat h.1
    simp only [BitVec.toNat_ofNat] at h1
    have h2 := ih _ _ (by rw [pow_succ] at ha; omega) (by rw [pow_succ] at hb; omega) h.2
    omega

/-- The limbs of an integer in little-endian order give its bytes in little-endian order, whatever the size of a limb. -/
theorem limbs_bytes (word count v : Nat) : ((limbsOf word count v).map (leBytes word)).flatten = leBytes (word * count) v := by
  unfold limbsOf
  induction count with
  | zero => rfl
  | succ n ih =>
    rw [List.range_succ, List.map_append, List.map_append, List.flatten_append, ih, Nat.mul_succ, leBytes_add]
    simp [leBytes_mod]

end Codecs

variable {I G Aux Sid : Type} [LinearOrder I]

private theorem order_write (W : Writers I G Aux Sid) (v : Nat) : W.order.write v = ((leBytes (W.word * W.limbs) v).map W.byte.write).flatten := by
  rw [← limbs_bytes]
  simp only [Writers.order]
  induction limbsOf W.word W.limbs v with
  | nil => rfl
  | cons a l ih => simp [ih]

private theorem sd_order {W : Writers I G Aux Sid} (h : Readable W) : SelfDelimiting W.order := by
  rintro a b x y ⟨ha, hb⟩ ⟨ha', -⟩ he
  rw [order_write, order_write] at he
  obtain ⟨e, he⟩ := sd_elems h.byte _ _ (by simp [leBytes_length]) (fun z _ => hb z) (fun z _ => hb z) _ _ he
  exact ⟨leBytes_inj _ _ _ ha ha' e, he⟩

private theorem sd_scheme {W : Writers I G Aux Sid} (h : Readable W) : SelfDelimiting W.scheme := by
  refine sd_via (sd_pair (sd_order h) <| sd_pair (sd_seq h.len h.byte) <| sd_pair sd_framed32 <| sd_pair sd_framed32 <| sd_pair sd_framed32 <| sd_pair sd_framed32 <|
    sd_pair sd_framed32 sd_framed32) ?_
  rintro ⟨⟩ ⟨⟩ h
  simpa using h

private theorem sd_rp {W : Writers I G Aux Sid} (h : Readable W) : SelfDelimiting W.rp :=
  sd_via (sd_pair h.uint <| sd_pair h.uint h.uint) (by rintro ⟨⟩ ⟨⟩ h; simpa using h)

private theorem sd_pubAux {W : Writers I G Aux Sid} (h : Readable W) : SelfDelimiting W.pubAux :=
  sd_via (sd_pair h.uint (sd_rp h)) (by rintro ⟨⟩ ⟨⟩ h; simpa using h)

private theorem sd_prmProof {W : Writers I G Aux Sid} (h : Readable W) : SelfDelimiting W.prmProof :=
  sd_via (sd_pair (sd_seq h.len h.uint) <| sd_pair h.bits (sd_seq h.len h.uint)) (by rintro ⟨⟩ ⟨⟩ h; simpa using h)

private theorem sd_auxData {W : Writers I G Aux Sid} (h : Readable W) : SelfDelimiting W.auxData :=
  sd_via (sd_pair h.uint <| sd_pair (sd_rp h) <| sd_pair (sd_prmProof h) <| sd_pair h.bits h.bits) (by rintro ⟨⟩ ⟨⟩ h; simpa using h)

private theorem sd_starCom {W : Writers I G Aux Sid} (h : Readable W) : SelfDelimiting W.starCom :=
  sd_via (sd_pair h.wide <| sd_pair h.point h.wide) (by rintro ⟨⟩ ⟨⟩ h; simpa using h)

private theorem sd_decCom {W : Writers I G Aux Sid} (h : Readable W) : SelfDelimiting W.decCom :=
  sd_via (sd_pair h.wide <| sd_pair h.point h.point) (by rintro ⟨⟩ ⟨⟩ h; simpa using h)

private theorem tag_ok (x : HashInput I G Aux Sid) : Codec.framed.ok x.tag := by
  cases x <;> simp [Codec.framed, HashInput.tag, HashInput.ascii]

private theorem tag_purpose (x y : HashInput I G Aux Sid) (h : x.tag = y.tag) : purpose x = purpose y := by
  cases x <;> cases y <;> first | rfl | (exfalso; revert h; simp only [HashInput.tag]; decide)

/-- **C65 (domain separation).** Hash inputs for different purposes are never fed to the hash function as the same bytes, and none of them can be continued to become the other. -/
theorem C65_purposes_separated (W : Writers I G Aux Sid) (x y : HashInput I G Aux Sid) (s t : List Byte) (h : x.stream W ++ s = y.stream W ++ t) : purpose x = purpose y := by
  simp only [HashInput.stream, List.append_assoc] at h
  exact tag_purpose x y (sd_framed _ _ _ _ (tag_ok x) (tag_ok y) h).1

/-- **C65.** Let single values be written in a self-delimiting way. If two hash inputs, both made of values in the range of their types, are fed to the hash function as the same bytes,
or one as a continuation of the other, then everything hashed is the same. Commitments must be of the same protocol. -/
theorem C65_same_bytes_same_input (W : Writers I G Aux Sid) (hW : Readable W) (x y : HashInput I G Aux Sid) (hx : x.Ok W) (hy : y.Ok W) (hp : committer x = committer y)
    (s t : List Byte) (h : x.stream W ++ s = y.stream W ++ t) : x = y ∧ s = t := by
  have hpur := C65_purposes_separated W x y s t h
  simp only [HashInput.stream, List.append_assoc] at h
  replace h := (sd_framed _ _ _ _ (tag_ok x) (tag_ok y) h).2
  have m := sd_bmap hW.len hW.id hW.point
  cases x <;> cases y <;> first | (exfalso; revert hpur; simp only [purpose]; decide) | (exfalso; revert hp; simp only [committer]; decide) | skip
  case sid.sid =>
    obtain ⟨e, hst⟩ := (sd_pair (sd_scheme hW) <| sd_pair (sd_seq hW.len hW.byte) (sd_bset hW.len hW.id)) _ _ _ _ hx hy h
    simp only [Prod.mk.injEq] at e
    obtain ⟨rfl, rfl, rfl⟩ := e
    exact ⟨rfl, hst⟩
  case epid.epid =>
    obtain ⟨e, hst⟩ := (sd_pair (sd_scheme hW) <| sd_pair (sd_seq hW.len hW.byte) <| sd_pair m (sd_bmap hW.len hW.id (sd_pubAux hW))) _ _ _ _ hx hy h
    simp only [Prod.mk.injEq] at e
    obtain ⟨rfl, rfl, rfl, rfl⟩ := e
    exact ⟨rfl, hst⟩
  case keyInit.keyInit _ _ d _ _ d' =>
    obtain ⟨e, hst⟩ := (sd_pair hW.sid <| sd_pair hW.id <| sd_pair hW.point <| sd_pair hW.point <| sd_pair hW.bits hW.bits) _ _ _ _ hx hy h
    cases d; cases d'
    simp only [Prod.mk.injEq] at e
    obtain ⟨rfl, rfl, rfl, rfl, rfl, rfl⟩ := e
    exact ⟨rfl, hst⟩
  case auxGen.auxGen =>
    obtain ⟨e, hst⟩ := (sd_pair hW.sid <| sd_pair hW.id (sd_auxData hW)) _ _ _ _ hx hy h
    simp only [Prod.mk.injEq] at e
    obtain ⟨rfl, rfl, rfl⟩ := e
    exact ⟨rfl, hst⟩
  case keyRefresh.keyRefresh _ _ d _ _ d' =>
    obtain ⟨e, hst⟩ := (sd_pair hW.sid <| sd_pair hW.id <| sd_pair m <| sd_pair m <| sd_pair m (sd_auxData hW)) _ _ _ _ hx hy h
    cases d; cases d'
    simp only [Prod.mk.injEq] at e
    obtain ⟨rfl, rfl, rfl, rfl, rfl, rfl⟩ := e
    exact ⟨rfl, hst⟩
  case mask.mask =>
    obtain ⟨e, hst⟩ := (sd_pair hW.sid <| sd_pair hW.bits <| sd_pair hW.id hW.point) _ _ _ _ hx hy h
    simp only [Prod.mk.injEq] at e
    obtain ⟨rfl, rfl, rfl, rfl⟩ := e
    exact ⟨rfl, hst⟩
  case sch.sch a b =>
    obtain ⟨e, hst⟩ := (sd_pair hW.aux <| sd_pair hW.point hW.point) _ _ _ _ hx hy h
    cases a; cases b
    simp only [Prod.mk.injEq] at e
    obtain ⟨rfl, rfl, rfl⟩ := e
    exact ⟨rfl, hst⟩
  case elog.elog a b =>
    obtain ⟨e, hst⟩ := (sd_pair hW.point <| sd_pair hW.point <| sd_pair hW.point <| sd_pair hW.point <| sd_pair hW.point <| sd_pair hW.point <| sd_pair hW.point <|
      sd_pair hW.point hW.aux) _ _ _ _ hx hy h
    cases a; cases b
    simp only [Prod.mk.injEq] at e
    obtain ⟨rfl, rfl, rfl, rfl, rfl, rfl, rfl, rfl, rfl⟩ := e
    exact ⟨rfl, hst⟩
  case encElg.encElg a b =>
    obtain ⟨e, hst⟩ := (sd_pair hW.uint <| sd_pair hW.wide <| sd_pair hW.point <| sd_pair hW.point <| sd_pair hW.uint <| sd_pair hW.uint <| sd_pair hW.wide <| sd_pair hW.point <|
      sd_pair hW.point <| sd_pair hW.point <| sd_pair (sd_rp hW) hW.aux) _ _ _ _ hx hy h
    cases a; cases b
    simp only [Prod.mk.injEq] at e
    obtain ⟨rfl, rfl, rfl, rfl, rfl, rfl, rfl, rfl, rfl, rfl, rfl, rfl⟩ := e
    exact ⟨rfl, hst⟩
  case affG.affG a b =>
    obtain ⟨e, hst⟩ := (sd_pair hW.wide <| sd_pair hW.point <| sd_pair hW.wide <| sd_pair hW.uint <| sd_pair hW.uint <| sd_pair hW.uint <| sd_pair hW.uint <| sd_pair hW.uint <|
      sd_pair hW.uint <| sd_pair hW.wide <| sd_pair hW.wide <| sd_pair hW.wide <| sd_pair hW.point <| sd_pair (sd_rp hW) hW.aux) _ _ _ _ hx hy h
    cases a; cases b
    simp only [Prod.mk.injEq] at e
    obtain ⟨rfl, rfl, rfl, rfl, rfl, rfl, rfl, rfl, rfl, rfl, rfl, rfl, rfl, rfl, rfl⟩ := e
    exact ⟨rfl, hst⟩
  case affGStar.affGStar a b =>
    obtain ⟨e, hst⟩ := (sd_pair (sd_seq hW.len (sd_starCom hW)) <| sd_pair hW.uint <| sd_pair hW.uint <| sd_pair hW.wide <| sd_pair hW.wide <| sd_pair hW.wide <|
      sd_pair hW.point hW.aux) _ _ _ _ hx hy h
    cases a; cases b
    simp only [Prod.mk.injEq] at e
    obtain ⟨rfl, rfl, rfl, rfl, rfl, rfl, rfl, rfl⟩ := e
    exact ⟨rfl, hst⟩
  case dec.dec a b =>
    obtain ⟨e, hst⟩ := (sd_pair (sd_seq hW.len (sd_decCom hW)) <| sd_pair hW.uint <| sd_pair hW.wide <| sd_pair hW.point <| sd_pair hW.wide <| sd_pair hW.point <|
      sd_pair hW.point <| sd_pair (sd_rp hW) hW.aux) _ _ _ _ hx hy h
    cases a; cases b
    simp only [Prod.mk.injEq] at e
    obtain ⟨rfl, rfl, rfl, rfl, rfl, rfl, rfl, rfl, rfl⟩ := e
    exact ⟨rfl, hst⟩
  case fac.fac a b =>
    obtain ⟨e, hst⟩ := (sd_pair hW.uint <| sd_pair hW.uint <| sd_pair hW.uint <| sd_pair hW.uint <| sd_pair hW.uint <| sd_pair hW.uint <| sd_pair (sd_rp hW) hW.aux) _ _ _ _ hx hy h
    cases a; cases b
    simp only [Prod.mk.injEq] at e
    obtain ⟨rfl, rfl, rfl, rfl, rfl, rfl, rfl, rfl⟩ := e
    exact ⟨rfl, hst⟩
  case mod.mod a b =>
    obtain ⟨e, hst⟩ := (sd_pair hW.uint <| sd_pair hW.uint hW.aux) _ _ _ _ hx hy h
    cases a; cases b
    simp only [Prod.mk.injEq] at e
    obtain ⟨rfl, rfl, rfl⟩ := e
    exact ⟨rfl, hst⟩
  case modRng.modRng =>
    obtain ⟨e, hst⟩ := (sd_pair hW.uint <| sd_pair hW.uint hW.aux) _ _ _ _ hx hy h
    simp only [Prod.mk.injEq] at e
    obtain ⟨rfl, rfl, rfl⟩ := e
    exact ⟨rfl, hst⟩
  case prm.prm a b =>
    obtain ⟨e, hst⟩ := (sd_pair (sd_seq hW.len hW.uint) <| sd_pair (sd_rp hW) hW.aux) _ _ _ _ hx hy h
    cases a; cases b
    simp only [Prod.mk.injEq] at e
    obtain ⟨rfl, rfl, rfl⟩ := e
    exact ⟨rfl, hst⟩

/-- **C65 (platforms).** Session ids and the ids of signing sessions do not depend on the size of a limb: the order of the curve is written as the same bytes on 32- and 64-bit targets. -/
theorem C65_platform_independent (W : Writers I G Aux Sid) (n : Nat) (x : HashInput I G Aux Sid) :
    x.stream { W with word := 8, limbs := n } = x.stream { W with word := 4, limbs := 2 * n } := by
  have ho : ∀ v, ({ W with word := 8, limbs := n } : Writers I G Aux Sid).order.write v = ({ W with word := 4, limbs := 2 * n } : Writers I G Aux Sid).order.write v := by
    intro v
    rw [order_write, order_write]
    show ((leBytes (8 * n) v).map _).flatten = ((leBytes (4 * (2 * n)) v).map _).flatten
    rw [show 4 * (2 * n) = 8 * n by ring]
  have hs : ∀ p, ({ W with word := 8, limbs := n } : Writers I G Aux Sid).scheme.write p = ({ W with word := 4, limbs := 2 * n } : Writers I G Aux Sid).scheme.write p := by
    intro p
    exact congrArg (· ++ _) (ho p.order)
  cases x with
  | sid p r ids => exact congrArg (fun z => _ ++ (z ++ _)) (hs p)
  | epid p r sh aux => exact congrArg (fun z => _ ++ (z ++ _)) (hs p)
  | _ => rfl

/-- Digests have twice as many bits as the security level, rounded up to bytes. -/
theorem C65_digest_size (s : Nat) : 2 * s ≤ 8 * hashOutputBytes s ∧ 8 * hashOutputBytes s < 2 * s + 8 := by
  unfold hashOutputBytes; omega

/-- Writers of fixed width, for integers below `256^k` -/
private def fixed (k : Nat) : Codec Nat := ⟨beBytes k, fun n => n < 256 ^ k⟩

private theorem sd_fixed (k : Nat) : SelfDelimiting (fixed k) := by
  intro a b x y ha hb h
  obtain ⟨h1, h2⟩ := List.append_inj h (by simp [fixed])
  exact ⟨beBytes_inj ha hb h1, h2⟩

/-- Concrete writers: fixed width for numbers, points as numbers, lengths with 8 bytes, limbs of 8 bytes -/
private def W0 : Writers Nat Nat Nat Nat where
  byte := (fixed 1).via BitVec.toNat
  len := fixed 8
  point := fixed 33
  uint := fixed 256
  wide := fixed 512
  bits := Codec.seq (fixed 8) ((fixed 1).via Bool.toNat)
  id := fixed 4
  sid := fixed 32
  aux := fixed 40
  word := 8
  limbs := 4

private theorem W0_readable : Readable W0 where
  byte := sd_via (sd_fixed 1) fun _ _ h => BitVec.eq_of_toNat_eq h
  len := sd_fixed _
  point := sd_fixed _
  uint := sd_fixed _
  wide := sd_fixed _
  bits := sd_seq (sd_fixed 8) (sd_via (sd_fixed 1) fun a b h => by cases a <;> cases b <;> simp_all)
  id := sd_fixed _
  sid := sd_fixed _
  aux := sd_fixed _

/-- The session ids of the two production parameter sets, and those of different groups of parties, are made of different bytes. -/
example : (HashInput.sid (Params.production112.hashed 97 [4#8]) [1#8, 2#8] {1, 2, 3}).stream W0 ≠ (HashInput.sid (Params.production128.hashed 97 [4#8]) [1#8, 2#8] {1, 2, 3}).stream W0 ∧
    (HashInput.sid (Params.production112.hashed 97 [4#8]) [1#8, 2#8] {1, 2, 3}).stream W0 ≠ (HashInput.sid (Params.production112.hashed 97 [4#8]) [1#8, 2#8] {1, 2}).stream W0 := by
  have hb : ∀ b : Byte, W0.byte.ok b := fun b => by show b.toNat < 256 ^ 1; have := b.isLt; omega
  have ok : ∀ (P : Params) (ids : Finset Nat), (P = Params.production112 ∨ P = Params.production128) → (ids = {1, 2, 3} ∨ ids = {1, 2}) →
      (HashInput.sid (P.hashed 97 [4#8]) [1#8, 2#8] ids : HashInput Nat Nat Nat Nat).Ok W0 := by
    intro P ids hP hids
    have e1 : bsetIter ({1, 2, 3} : Finset Nat) = [1, 2, 3] := by decide
    have e2 : bsetIter ({1, 2} : Finset Nat) = [1, 2] := by decide
    refine ⟨⟨⟨show 97 < 256 ^ (8 * 4) by norm_num, hb⟩, ⟨show 1 < 256 ^ 8 by norm_num, fun x _ => hb x⟩, ?_⟩, ⟨show 2 < 256 ^ 8 by norm_num, fun x _ => hb x⟩, ?_⟩
    · show P.primeBits < 2 ^ 32 ∧ P.secBits < 2 ^ 32 ∧ P.kappa < 2 ^ 32 ∧ P.L < 2 ^ 32 ∧ P.LP < 2 ^ 32 ∧ P.EPS < 2 ^ 32
      rcases hP with rfl | rfl <;> decide
    · rcases hids with rfl | rfl
      · show (bsetIter ({1, 2, 3} : Finset Nat)).length < 256 ^ 8 ∧ ∀ x ∈ bsetIter ({1, 2, 3} : Finset Nat), x < 256 ^ 4
        rw [e1]; decide
      · show (bsetIter ({1, 2} : Finset Nat)).length < 256 ^ 8 ∧ ∀ x ∈ bsetIter ({1, 2} : Finset Nat), x < 256 ^ 4
        rw [e2]; decide
  constructor
  · intro h
    have := (C65_same_bytes_same_input W0 W0_readable _ _ (ok _ _ (.inl rfl) (.inl rfl)) (ok _ _ (.inr rfl) (.inl rfl)) rfl [] [] (by rw [h])).1
    revert this
    simp [Params.hashed, Params.production112, Params.production128]
  · intro h
    have := (C65_same_bytes_same_input W0 W0_readable _ _ (ok _ _ (.inl rfl) (.inl rfl)) (ok _ _ (.inl rfl) (.inr rfl)) rfl [] [] (by rw [h])).1
    injection this with _ _ h3
    exact absurd h3 (by decide)

end Synedrion.Props
