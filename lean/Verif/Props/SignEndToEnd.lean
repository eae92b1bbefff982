import Verif.Model.Signers
import Verif.Spec.Signing
import Verif.Props.BigBang
import Verif.Props.Elastos
import Verif.Props.Wayki
import Verif.Props.Filenet
import Verif.Props.Moac
import Verif.Props.Ripple
import Verif.Props.OntologyVM
import Verif.Props.BtcSig

/-! Property C129: what a package's signing function makes of the hash its creation function returned, its combining function accepts with
the public key of the same private key. -/

namespace Verif
open Verif.Spec

namespace Signers

/-- A toy scheme of order `n`, to show that the assumptions about signatures can be met. -/
def toyCurve (n : Nat) : Btc.Curve where
  decompress p := 4 :: p
  verify _ h s := s.length = 64 && beNat (s.take 32) = 1 && (beNat (s.drop 32) = beNat h % (n - 1) + 1 || beNat (s.drop 32) = n - (beNat h % (n - 1) + 1))

def toySign (n : Nat) (_ h : Bytes) : Option Bytes := some (beBytes 32 1 ++ beBytes 32 (beNat h % (n - 1) + 1))

theorem toy_ecdsa (n : Nat) (h2 : 2 ≤ n) (hn : n < 256 ^ 32) : Ecdsa (toyCurve n) n (toySign n) fun _ => List.replicate 33 2 := by
  have hlt : ∀ h : Bytes, beNat h % (n - 1) + 1 < n := fun h => by
    have := Nat.mod_lt (beNat h) (by omega : 0 < n - 1)
    omega
  have ht : ∀ x : Nat, (beBytes 32 1 ++ beBytes 32 x).take 32 = beBytes 32 1 := fun x => List.take_left' (by simp)
  have hd : ∀ x : Nat, (beBytes 32 1 ++ beBytes 32 x).drop 32 = beBytes 32 x := fun x => List.drop_left' (by simp)
  have h1 : beNat (beBytes 32 1) = 1 := by decide +kernel
  have hb : ∀ h : Bytes, beNat (beBytes 32 (beNat h % (n - 1) + 1)) = beNat h % (n - 1) + 1 := fun h =>
    beNat_beBytes_of_lt (lt_trans (hlt h) hn)
  refine ⟨?_, ?_, ?_, ?_, ?_, ?_, ?_⟩
  · rintro k h s ⟨⟩
    simp
  · rintro k h s ⟨⟩
    rw [ht, h1]
    decide
  · rintro k h s ⟨⟩
    rw [hd, hb]
    omega
  · rintro k h s ⟨⟩
    rw [hd, hb]
    exact hlt h
  · intros
    rfl
  · rintro k h s ⟨⟩
    refine ⟨4, _, rfl, ?_⟩
    simp only [toyCurve, ht, hd, h1, hb]
    simp
  · intro p h s s' hv hl hl' hr hs
    simp only [toyCurve, Bool.and_eq_true, Bool.or_eq_true, decide_eq_true_eq] at hv ⊢
    have := hlt h
    rw [hr, hs]
    refine ⟨⟨hl', hv.1.2⟩, ?_⟩
    rcases hv.2 with e | e <;> rw [e]
    · exact Or.inr rfl
    · left; omega

theorem toy_sizes (n : Nat) (h2 : 2 ≤ n) : Ripple.EcdsaSizes (toyCurve n) ∧ Accepts64 (toyCurve n) := by
  have key : ∀ p h s, (toyCurve n).verify p h s = true → s.length = 64 ∧ beNat (s.take 32) ≠ 0 ∧ beNat (s.drop 32) ≠ 0 := by
    intro p h s hv
    simp only [toyCurve, Bool.and_eq_true, Bool.or_eq_true, decide_eq_true_eq] at hv
    have := Nat.mod_lt (beNat h) (by omega : 0 < n - 1)
    refine ⟨hv.1.1, by rw [hv.1.2]; decide, ?_⟩
    rcases hv.2 with e | e <;> rw [e] <;> omega
  exact ⟨key, fun p h s hv => (key p h s hv).1⟩

/-- The assumptions can be met, for the orders of both curves, also by signatures with s in the upper half, and by some with s next to n. -/
example : Ecdsa (toyCurve Btc.curveOrder) Btc.curveOrder (toySign Btc.curveOrder) (fun _ => List.replicate 33 2) ∧
    Ecdsa (toyCurve Ontology.curveOrder) Ontology.curveOrder (toySign Ontology.curveOrder) (fun _ => List.replicate 33 2) ∧
    (∃ s, toySign Btc.curveOrder [] (List.replicate 32 0x90) = some s ∧ Btc.halfOrder < beNat (s.drop 32) ∧ 2 ^ 240 ≤ Btc.curveOrder - beNat (s.drop 32)) ∧
    (∃ s, toySign Btc.curveOrder [] (beBytes 32 (Btc.curveOrder - 2)) = some s ∧ Btc.curveOrder - beNat (s.drop 32) < 2 ^ 240) ∧
    (∃ s, toySign Ontology.curveOrder [] (beBytes 32 (Ontology.curveOrder - 2)) = some s ∧ Ontology.curveOrder - beNat (s.drop 32) < 2 ^ 240) :=
  ⟨toy_ecdsa _ (by decide +kernel) (by decide +kernel), toy_ecdsa _ (by decide +kernel) (by decide +kernel), ⟨_, rfl, by decide +kernel, by decide +kernel⟩,
    ⟨_, rfl, by decide +kernel⟩, ⟨_, rfl, by decide +kernel⟩⟩

end Signers

/-- C129 for BigBang. -/
theorem C129_bigbang (H : Hashes) (verify : Bytes → Bytes → Bytes → Bool) (sign : Bytes → Bytes → Option Bytes) (pub : Bytes → Bytes)
    (timestamp lockUntil : UInt32) (anchor : Bytes) (inputs : List BigBang.Vin) (to_ : Bytes) (amount fee : UInt64) (data text hash key : Bytes)
    (law : ∀ k h s, k.length = 32 → sign k h = some s → s.length = 64 ∧ (pub k).length = 32 ∧ verify (pub k) h s = true)
    (hc : BigBang.createEmpty H timestamp lockUntil anchor inputs to_ amount fee data = .ok (text, hash)) (hk : key.length = 32) :
    (∀ sigText, BigBang.signTransactionHash sign hash key = .ok sigText →
      BigBang.verifyAndCombine H verify text sigText (pub key) = (true, text ++ asc "40" ++ sigText)) ∧
    ∃ hb, Hex.decode hash = .ok hb ∧
      (∀ s, sign key hb = some s → BigBang.signTransactionHash sign hash key = .ok (Hex.encode s)) ∧
      (sign key hb = none → BigBang.signTransactionHash sign hash key = .err) := by
  obtain ⟨t, -, eh, -⟩ := (C73_layout ..).mp hc
  have hd : Hex.decode hash = .ok (H.hash (.blake2b 32) t.wire) := by rw [eh, Hex.decode_encode]
  have h32 : ¬ (H.hash (.blake2b 32) t.wire).length ≠ 32 := by rw [H.size]; decide
  have key' : ∀ o, sign key (H.hash (.blake2b 32) t.wire) = o → BigBang.signTransactionHash sign hash key =
      match o with
      | none => .err
      | some s => .ok (Hex.encode s) := by
    rintro o rfl
    unfold BigBang.signTransactionHash
    rw [hd]
    simp only
    rw [if_neg h32, if_neg (by omega)]
    cases sign key (H.hash (.blake2b 32) t.wire) <;> rfl
  refine ⟨fun sigText h => ?_, _, hd, fun s h => key' _ h, fun h => key' _ h⟩
  match ho : sign key (H.hash (.blake2b 32) t.wire) with
  | none => rw [key' _ ho] at h; cases h
  | some s =>
    rw [key' _ ho] at h
    cases h
    obtain ⟨l1, l2, l3⟩ := law _ _ _ hk ho
    exact C73_end_to_end H verify timestamp lockUntil anchor inputs to_ amount fee data text hash _ s (pub key) hc hd l1 l2 l3

example : ∃ (verify : Bytes → Bytes → Bytes → Bool) (sign : Bytes → Bytes → Option Bytes) (pub : Bytes → Bytes),
    ∀ k h s, k.length = 32 → sign k h = some s → s.length = 64 ∧ (pub k).length = 32 ∧ verify (pub k) h s = true :=
  ⟨fun p h s => s == (h ++ p).take 64 ++ List.replicate (64 - (h ++ p).length) 0, fun k h => some ((h ++ k).take 64 ++ List.replicate (64 - (h ++ k).length) 0), id, by
    rintro k h s hk ⟨⟩
    refine ⟨?_, hk, by simp⟩
    simp only [List.length_append, List.length_take, List.length_replicate]
    omega⟩

/-- C129 for Wayki: every created transaction, with a key of the scheme. The signed transaction is the created one followed by the DER form
of the very signature. -/
theorem C129_wayki (H : Hashes) (C : Btc.Curve) (n : Nat) (sign : Bytes → Bytes → Option Bytes) (pub : Bytes → Bytes) (law : Ecdsa C n sign pub)
    (f t a : Bytes) (amount fee height : Int) (ty : UInt8) (text hash key : Bytes)
    (hc : Wayki.create H f t a amount fee height ty = .ok (text, hash)) :
    (∀ sig, Wayki.signRawTransaction sign hash key = .ok sig →
      ∃ R S, IsDerInt R (beNat (sig.take 32)) ∧ IsDerInt S (beNat (sig.drop 32)) ∧
        Wayki.verifyAndCombine H C text sig (pub key) = .ok (true, text ++ Hex.encode (UInt8.ofNat (derSig R S).length :: derSig R S))) ∧
    ∃ hb, Hex.decode hash = .ok hb ∧
      (∀ s, sign key hb = some s → Wayki.signRawTransaction sign hash key = .ok s) ∧
      (sign key hb = none → Wayki.signRawTransaction sign hash key = .err) := by
  obtain ⟨rest, -, eh, -⟩ := Wayki.create_ok hc
  obtain ⟨hb, hd⟩ : ∃ hb, Hex.decode hash = .ok hb := ⟨_, by rw [eh, Hex.decode_encode]⟩
  have key' : ∀ o, sign key hb = o → Wayki.signRawTransaction sign hash key =
      match o with
      | none => .err
      | some s => .ok s := by
    rintro o rfl
    unfold Wayki.signRawTransaction
    rw [hd]
    cases h : sign key hb <;> simp only [h]
  refine ⟨fun sig h => ?_, hb, hd, fun s h => key' _ h, fun h => key' _ h⟩
  match ho : sign key hb with
  | none => rw [key' _ ho] at h; cases h
  | some s =>
    rw [key' _ ho] at h
    cases h
    obtain ⟨p0, p, e1, e2⟩ := law.correct _ _ _ ho
    obtain ⟨hb', -, hd', -, h2⟩ := C42_combine H C f t a amount fee height ty text hash sig (pub key) hc (by rw [e1]; simp)
    rw [hd] at hd'
    cases hd'
    exact h2 (by rw [e1]; exact e2) (law.size _ _ _ ho) (law.r_pos _ _ _ ho) (law.s_pos _ _ _ ho)

example : (Wayki.create toyHashes (Hex.encode (2 :: List.replicate 32 7)) [] [] 0 1000 20 2).isOk = true := by decide +kernel

/-- C129 for Elastos: with a key for every address to sign, the signatures made with them, each with its key's public key and in the order of
the hashes, complete the transaction. -/
theorem C129_elastos (H : Hashes) (C : Btc.Curve) (n : Nat) (sign : Bytes → Bytes → Option Bytes) (pub : Bytes → Bytes) (law : Ecdsa C n sign pub)
    (vins : List Elastos.Vin) (vouts : List Elastos.Vout) (text : Bytes) (hashes : List (Bytes × Bytes)) (key : Bytes → Bytes)
    (hl : vins.length < 2 ^ 56) (hc : Elastos.createEmpty H vins vouts = .ok (text, hashes)) :
    (∀ sps, List.Forall₂ (fun e sp => Elastos.signRawTransaction sign e.2 (key e.1) = .ok sp.sig ∧ sp.pub = pub (key e.1)) hashes sps →
      Elastos.verifyAndCombine H C text sps = .ok (true, text ++ Hex.encode (Spec.Elastos.uvarint sps.length ++
        sps.flatMap fun s => Spec.Elastos.sigWire s.pub s.sig))) ∧
    ∀ e ∈ hashes, ∃ hb, Hex.decode e.2 = .ok hb ∧
      (∀ s, sign (key e.1) hb = some s → Elastos.signRawTransaction sign e.2 (key e.1) = .ok s) ∧
      (sign (key e.1) hb = none → Elastos.signRawTransaction sign e.2 (key e.1) = .err) := by
  obtain ⟨hnd, hmem, -, raw, hr, hh⟩ := C51_hashes H vins vouts text hashes hc
  have key' : ∀ e ∈ hashes, Elastos.signRawTransaction sign e.2 (key e.1) =
      match sign (key e.1) (H.hash .sha256 raw) with
      | none => .err
      | some s => .ok s := by
    intro e he
    unfold Elastos.signRawTransaction
    rw [hh e he]
    cases h : sign (key e.1) (H.hash .sha256 raw) <;> simp only [h]
  constructor
  · intro sps hf
    have hle : hashes.length ≤ vins.length := by
      have := (List.subperm_of_subset hnd (fun a ha => (hmem a).mp ha)).length_le
      simpa using this
    have hlen : sps.length < 2 ^ 56 := by have := hf.length_eq; omega
    have htext : text = Hex.encode raw := by
      obtain ⟨t, e⟩ : ∃ b, text = Hex.encode b := by
        unfold Elastos.createEmpty at hc
        split at hc
        · cases hc
        · obtain ⟨tx, _, hc⟩ := Res.bind_eq_ok.mp hc
          cases hc
          exact ⟨_, rfl⟩
      rw [e, Hex.decode_encode] at hr
      cases hr
      exact e
    refine (C55_elastos_partial H C text _ sps hlen).mpr ⟨raw, hr, ?_, ?_⟩
    · intro s hs
      have : ∃ e ∈ hashes, Elastos.signRawTransaction sign e.2 (key e.1) = .ok s.sig ∧ s.pub = pub (key e.1) := by
        clear key' hle hlen hnd hmem hh hc
        induction hf with
        | nil => cases hs
        | cons h1 _ ih =>
          rcases List.mem_cons.mp hs with rfl | hs
          · exact ⟨_, by simp, h1⟩
          · obtain ⟨e, he, h⟩ := ih hs
            exact ⟨e, by simp [he], h⟩
      obtain ⟨e, he, h1, h2⟩ := this
      rw [key' e he] at h1
      match ho : sign (key e.1) (H.hash .sha256 raw) with
      | none => rw [ho] at h1; cases h1
      | some z =>
        rw [ho] at h1
        have h1 := Res.ok.inj h1
        rw [h2, ← h1]
        exact ⟨law.pub_size _ _ _ ho, law.size _ _ _ ho, law.correct _ _ _ ho⟩
    · rw [htext, ← Hex.encode_append]
      simp only [List.append_assoc]
  · intro e he
    refine ⟨_, hh e he, fun s h => ?_, fun h => ?_⟩
    · rw [key' e he, h]
    · rw [key' e he, h]

/-- C129 for Filenet, for all transfers that can be created (up to the memory of the machine): the completed transfer carries the id that was
signed and the signature. -/
theorem C129_filenet (H : Hashes) (C : Btc.Curve) (n : Nat) (sign : Bytes → Bytes → Option Bytes) (pub : Bytes → Bytes) (law : Ecdsa C n sign pub)
    (S : Filenet.Sorter) (mem : Nat) (time : UInt64) (in_ : Bytes) (outs : List Filenet.Vout) (text hash key : Bytes)
    (hmem : outs.length ≤ mem) (hlen : outs.length < 2 ^ 64) (hc : Filenet.createEmpty H S time in_ outs = .ok (text, hash)) (hk : key.length = 32) :
    (∀ sigText, Filenet.signTransaction sign hash key = .ok sigText →
      ∃ tr, Filenet.verifyAndCombine H C mem text sigText (Hex.encode (pub key)) = .ok (some tr) ∧ tr.txId = hash ∧ tr.sign = sigText ∧
        Filenet.decodeRaw H mem text sigText = .ok tr) ∧
    ∃ hb, Hex.decode hash = .ok hb ∧
      (∀ s, sign key hb = some s → Filenet.signTransaction sign hash key = .ok (Hex.encode s)) ∧
      (sign key hb = none → Filenet.signTransaction sign hash key = .err) := by
  obtain ⟨t, h1, et, eh, h4, _, _, h7, h8, h9⟩ := (Filenet.createEmpty_iff H S time in_ outs text hash hlen).mp hc
  have hd : Hex.decode hash = .ok (H.hash .sha256 t.wire) := by rw [eh, Hex.decode_encode]
  have h32 : (H.hash .sha256 t.wire).length = 32 := by rw [H.size]; rfl
  have hne : hash ≠ [] := by
    rintro rfl
    have := Hex.decode_length _ _ hd
    rw [h32] at this
    simp at this
  have key' : ∀ o, sign key (H.hash .sha256 t.wire) = o → Filenet.signTransaction sign hash key =
      match o with
      | none => .err
      | some s => .ok (Hex.encode s) := by
    rintro o rfl
    unfold Filenet.signTransaction
    rw [if_neg (by rintro (h | h); exacts [hne h, h hk]), hd]
    simp only
    rw [if_neg (by omega)]
    cases sign key (H.hash .sha256 t.wire) <;> rfl
  refine ⟨fun sigText h => ?_, _, hd, fun s h => key' _ h, fun h => key' _ h⟩
  match ho : sign key (H.hash .sha256 t.wire) with
  | none => rw [key' _ ho] at h; cases h
  | some s =>
    rw [key' _ ho] at h
    cases h
    obtain ⟨fa, -, hfa⟩ := Filenet.exists_address h1.1
    have hdet : ∃ l : List (Bytes × UInt64), List.Forall₂ (fun d o => Spec.Filenet.IsAddress o.1 d.1 ∧ d.2.toNat = o.2) l t.outs := by
      have hall := h1.2.2.2.2
      revert hall
      generalize t.outs = m
      intro hall
      induction m with
      | nil => exact ⟨[], .nil⟩
      | cons o m ih =>
        obtain ⟨ha, hall⟩ := List.forall_mem_cons.mp hall
        obtain ⟨l, hl⟩ := ih hall
        obtain ⟨x, -, hx⟩ := Filenet.exists_address ha.1
        exact ⟨(x, UInt64.ofNat o.2) :: l, .cons ⟨hx, UInt64.toNat_ofNat_of_lt' ha.2⟩ hl⟩
    obtain ⟨l, hl⟩ := hdet
    have hol : t.outs.length = outs.length := by rw [← h9.length_eq, (S.perm outs).length_eq]
    have hdec : Filenet.decodeRaw H mem text (Hex.encode s) = .ok ⟨hash, fa, UInt64.ofNat t.outs.length, UInt64.ofNat t.total, time, l, Hex.encode s⟩ :=
      (Filenet.decodeRaw_iff ..).mpr ⟨t, h1, by omega, by rw [et, Hex.decode_encode], by rw [Hex.encode_length, law.size _ _ _ ho],
        ⟨s, Hex.decode_encode _⟩, eh, hfa, UInt64.toNat_ofNat_of_lt' h1.2.1, UInt64.toNat_ofNat_of_lt' h1.2.2.1, h7.symm, hl, rfl⟩
    obtain ⟨p0, p, e1, e2⟩ := law.correct _ _ _ ho
    exact ⟨_, (C52_combine ..).mpr ⟨hdec, _, s, _, p0, p, by rw [et, Hex.decode_encode], Hex.decode_encode _, Hex.decode_encode _, e1, e2⟩, rfl, rfl, hdec⟩

/-- C129 for Moac, within the bounds of C45: amounts, r and s of a length that the package serialises correctly. -/
theorem C129_moac_partial (H : Hashes) (C : Moac.Curve) (sign : Bytes → Bytes → Option (Bytes × UInt8)) (pub : Bytes → Bytes)
    (law : ∀ k h s v, sign k h = some (s, v) → s.length = 64 ∧ (v = 0 ∨ v = 1) ∧
      ∃ p, C.recover (s ++ [v]) h = some p ∧ C.compress p = pub k ∧ C.verify p h s = true)
    (to_ text hash key : Bytes) (nonce : UInt64) (amount gasLimit gasPrice : Int) (test : Bool)
    (hc : Moac.create H to_ nonce amount gasLimit gasPrice test = .ok (text, hash)) (hlen : text.length ≤ 112)
    (h1 : Moac.Plain amount) (h2 : Moac.Plain gasLimit) (h3 : Moac.Plain gasPrice) :
    (∀ sig, Moac.signRawTransaction sign hash key = .ok sig → Moac.Plain (beNat (sig.take 32)) → Moac.Plain (beNat ((sig.drop 32).take 32)) →
      ∃ h, Moac.IsAddress to_ h ∧ Moac.verifyAndCombine H C text (Hex.encode sig) (Hex.encode (pub key)) test = .ok (true, asc "0x" ++ Hex.encode (Rlp.list
        (Moac.items nonce.toNat gasPrice gasLimit h amount (Rlp.be (((sig.drop 64).headD 0).toNat + 35 + 2 * (if test then 101 else 99)))
          (Rlp.be (beNat (sig.take 32))) (Rlp.be (beNat ((sig.drop 32).take 32))))))) ∧
    ∃ hb, Hex.decode hash = .ok hb ∧
      (∀ s v, sign key hb = some (s, v) → Moac.signRawTransaction sign hash key = .ok (s ++ [v])) ∧
      (sign key hb = none → Moac.signRawTransaction sign hash key = .err) := by
  obtain ⟨ha, -, -, eh⟩ := Moac.create_empty hc
  obtain ⟨hb, hd, h32⟩ : ∃ hb, Hex.decode hash = .ok hb ∧ hb.length = 32 := ⟨_, by rw [eh, Hex.decode_encode], by rw [H.size]; rfl⟩
  have key' : ∀ o, sign key hb = o → Moac.signRawTransaction sign hash key =
      match o with
      | none => .err
      | some (s, v) => .ok (s ++ [v]) := by
    rintro o rfl
    unfold Moac.signRawTransaction
    rw [hd]
    simp only
    rw [if_neg (by omega)]
    cases sign key hb <;> rfl
  refine ⟨fun sig h hr hs => ?_, hb, hd, fun s v h => key' _ h, fun h => key' _ h⟩
  match ho : sign key hb with
  | none => rw [key' _ ho] at h; cases h
  | some (s, v) =>
    rw [key' _ ho] at h
    have h := (Res.ok.inj h).symm
    obtain ⟨l1, l2, p, l3, l4, l5⟩ := law _ _ _ _ ho
    have d64 : sig.drop 64 = [v] := by rw [h, List.drop_left' l1]
    have t64 : sig.take 64 = s := by rw [h, List.take_left' l1]
    have hvf : ∃ i : Fin 2, v = UInt8.ofNat i.val := by
      rcases l2 with rfl | rfl
      · exact ⟨0, rfl⟩
      · exact ⟨1, rfl⟩
    obtain ⟨i, hi⟩ := hvf
    have := C45_combine_partial H C to_ text hash (Hex.encode sig) (Hex.encode (pub key)) sig hb p nonce amount gasLimit gasPrice test i hc hlen
      h1 h2 h3 (Hex.decode_encode _) (by rw [h]; simp [l1]) (by rw [d64, hi]) hd (by rw [h]; exact l3) (by rw [Hex.decode_encode, l4])
      (by rw [t64]; exact l5) hr hs
    rw [d64]
    have e : (([v] : Bytes).headD 0).toNat = i.val := by
      rw [hi]
      match i with
      | 0 => rfl
      | 1 => rfl
    rw [e]
    exact this

/-- The assumption about recoverable signatures can be met. -/
example : ∃ (C : Moac.Curve) (sign : Bytes → Bytes → Option (Bytes × UInt8)) (pub : Bytes → Bytes), ∀ k h s v, sign k h = some (s, v) →
    s.length = 64 ∧ (v = 0 ∨ v = 1) ∧ ∃ p, C.recover (s ++ [v]) h = some p ∧ C.compress p = pub k ∧ C.verify p h s = true :=
  ⟨⟨fun s _ => some (s.take 32), id, fun p _ s => s.take 32 == p⟩,
    fun k _ => some ((k ++ List.replicate 32 0).take 32 ++ List.replicate 32 9, 1), fun k => (k ++ List.replicate 32 0).take 32, by
    rintro k h s v ⟨⟩
    have l : ((k ++ List.replicate 32 0).take 32 : Bytes).length = 32 := by simp
    refine ⟨by simp, Or.inr rfl, _, rfl, ?_, ?_⟩
    · show (_ ++ [1] : Bytes).take 32 = _
      rw [List.append_assoc, List.take_left' l]
    · show ((_ ++ _ : Bytes).take 32 == (_ ++ [1] : Bytes).take 32) = true
      rw [List.append_assoc, List.take_left' l, List.take_left' l]
      exact beq_self_eq_true _⟩

/-! ### Ripple and Ontology: the signature is normalised before it is returned -/

/-- C129 for Ripple, when n - s is at least 2^240: the result is what the package serialises for this payment and signature; and s is in the
lower half. Missing: the other signatures, see `C129_ripple_violated`. -/
theorem C129_ripple_partial (H : Hashes) (C : Btc.Curve) (hC : Ripple.EcdsaSizes C) (sign : Bytes → Bytes → Option Bytes) (pub : Bytes → Bytes)
    (law : Ecdsa C Btc.curveOrder sign pub) (p : Ripple.Payment) (text hash key : Bytes)
    (hc : Ripple.createEmptyRawTransactionAndHash H p = .ok (text, hash)) :
    ∃ hb, Hex.decode hash = .ok hb ∧
      (∀ s, sign key hb = some s → 2 ^ 240 ≤ Btc.curveOrder - beNat (s.drop 32) →
        ∃ sigText sig out t, Ripple.signRawTransaction sign hash key = .ok sigText ∧ Hex.decode sigText = .ok sig ∧
          2 * beNat (sig.drop 32) < Btc.curveOrder ∧
          Ripple.verifyAndCombine H C text sigText (Hex.encode (pub key)) = .ok (true, out) ∧
          Ripple.newTxStruct H p sigText = .ok t ∧ out = Hex.encode (Ripple.toBytes t)) ∧
      (sign key hb = none → Ripple.signRawTransaction sign hash key = .err) := by
  obtain ⟨hb, hd⟩ : ∃ hb, Hex.decode hash = .ok hb := by
    unfold Ripple.createEmptyRawTransactionAndHash at hc
    obtain ⟨t, _, h⟩ := Res.bind_eq_ok.mp hc
    cases h
    exact ⟨_, Hex.decode_encode _⟩
  refine ⟨hb, hd, fun s ho h240 => ?_, fun ho => ?_⟩
  · have hl := law.size _ _ _ ho
    have hlt := law.s_lt _ _ _ ho
    have hs0 := law.s_pos _ _ _ ho
    have hr0 := law.r_pos _ _ _ ho
    obtain ⟨q1, q2, q3⟩ := C26_low_s_partial s hl hlt
    have q3 := q3 h240
    obtain ⟨p0, pt, e1, e2⟩ := law.correct _ _ _ ho
    have hn : Btc.curveOrder = 2 * Btc.halfOrder + 1 := by decide
    have hver : C.verify pt hb (Btc.serilizeS s) = true := by
      by_cases c : beNat (s.drop 32) ≤ Btc.curveOrder - beNat (s.drop 32)
      · have : Btc.serilizeS s = s := by
          rw [← List.take_append_drop 32 (Btc.serilizeS s), q1]
          conv_rhs => rw [← List.take_append_drop 32 s]
          congr 1
          exact beNat_inj (by simp [q3, hl]) (by rw [q2, min_eq_left c])
        rw [this]
        exact e2
      · exact law.negate _ _ _ _ e2 hl q3 q1 (by rw [q2, min_eq_right (by omega)])
    have hsign : Ripple.signRawTransaction sign hash key = .ok (Hex.encode (Btc.serilizeS s)) := by
      unfold Ripple.signRawTransaction
      rw [hd]
      simp only [ho]
      rw [if_neg (by omega)]
    have hs1 : beNat ((Btc.serilizeS s).drop 32) ≠ 0 := by rw [q2]; omega
    obtain ⟨hb', r, hd', hcomb⟩ := C37_hash H C p text hash (Hex.encode (Btc.serilizeS s)) (Btc.serilizeS s) (Hex.encode (pub key)) (pub key) hc
      (Hex.decode_encode _) q3 (by rw [q1]; exact hr0) hs1 (Hex.decode_encode _) (by rw [e1]; simp)
    rw [hd] at hd'
    cases hd'
    rw [e1, List.drop_succ_cons, List.drop_zero, hver] at hcomb
    obtain ⟨_, _, _, _, _, _, t, _, _, _, _, _, _, _, _, g1, g2⟩ := C37_combine H C hC p text hash _ _ r hc hcomb
    exact ⟨_, _, r, t, hsign, Hex.decode_encode _, by rw [q2]; omega, hcomb, g1, g2⟩
  · unfold Ripple.signRawTransaction
    rw [hd]
    simp only [ho]

/-- Where C129 fails for Ripple: whenever n - s is below 2^240 (s above the half), the signing function returns fewer than 64 bytes, and
combining refuses them: no transaction comes out. -/
theorem C129_ripple_violated (H : Hashes) (C : Btc.Curve) (hC : Ripple.EcdsaSizes C) (sign : Bytes → Bytes → Option Bytes) (pub : Bytes → Bytes)
    (law : Ecdsa C Btc.curveOrder sign pub) (p : Ripple.Payment) (text hash key hb s : Bytes)
    (hc : Ripple.createEmptyRawTransactionAndHash H p = .ok (text, hash)) (hd : Hex.decode hash = .ok hb) (ho : sign key hb = some s)
    (hsmall : Btc.curveOrder - beNat (s.drop 32) < 2 ^ 240) :
    ∃ sigText, Ripple.signRawTransaction sign hash key = .ok sigText ∧
      Ripple.verifyAndCombine H C text sigText (Hex.encode (pub key)) = .ok (false, []) := by
  have hl := law.size _ _ _ ho
  have hw := C26_width_violated s hl (law.s_lt _ _ _ ho) hsmall
  obtain ⟨p0, pt, e1, e2⟩ := law.correct _ _ _ ho
  refine ⟨Hex.encode (Btc.serilizeS s), ?_, ?_⟩
  · unfold Ripple.signRawTransaction
    rw [hd]
    simp only [ho]
    rw [if_neg (by omega)]
  · unfold Ripple.createEmptyRawTransactionAndHash at hc
    obtain ⟨t, ht, h⟩ := Res.bind_eq_ok.mp hc
    cases h
    unfold Ripple.verifyAndCombine
    rw [show Ripple.toEmptyRawWiths t = Hex.encode t.pre ++ asc "s" ++ Hex.encode t.post from rfl, Ripple.hashFromEmptyRaw_text]
    simp only [Hex.decode_encode]
    rw [if_neg (by rw [e1]; simp), if_pos]
    rw [← Bool.not_eq_true]
    intro hv
    have := (hC _ _ _ hv).1
    omega

namespace Ontology

theorem order_eq : curveOrder = 2 * halfOrder + 1 := by decide

theorem low_s (sig : Bytes) (hl : sig.length = 64) (hs : beNat (sig.drop 32) < curveOrder) :
    (serilizeS sig).take 32 = sig.take 32 ∧
      beNat ((serilizeS sig).drop 32) = min (beNat (sig.drop 32)) (curveOrder - beNat (sig.drop 32)) ∧
      (2 ^ 240 ≤ curveOrder - beNat (sig.drop 32) → (serilizeS sig).length = 64) := by
  unfold serilizeS
  simp only
  generalize hv : beNat (sig.drop 32) = v at *
  have hn := order_eq
  have t32 : (sig.take 32).length = 32 := by simp; omega
  have ea : ((curveOrder : Int) - (v : Int)).natAbs = curveOrder - v := by omega
  rw [ea]
  split
  · rename_i hgt
    refine ⟨?_, ?_, ?_⟩
    · rw [List.take_left' t32]
    · rw [List.drop_left' t32, OwKeychain.beNat_padLoop, OwKeychain.beNat_bigBytes]
      omega
    · intro h240
      have hup : curveOrder - v < 256 ^ 32 := by
        have : curveOrder < 256 ^ 32 := by decide
        omega
      have l1 := (OwKeychain.bigBytes_length_le (curveOrder - v) 32).mpr hup
      have l2 : ¬ (OwKeychain.bigBytes (curveOrder - v)).length ≤ 30 := by
        rw [OwKeychain.bigBytes_length_le]
        have : (256 : Nat) ^ 30 = 2 ^ 240 := by norm_num
        omega
      rw [List.length_append, t32, OwKeychain.pad_length _ l1]
      omega
  · rename_i hgt
    refine ⟨rfl, ?_, fun _ => hl⟩
    rw [hv]
    omega

theorem short_s (sig : Bytes) (hl : sig.length = 64) (hs : beNat (sig.drop 32) < curveOrder)
    (hsmall : curveOrder - beNat (sig.drop 32) < 2 ^ 240) : (serilizeS sig).length < 64 := by
  unfold serilizeS
  simp only
  generalize hv : beNat (sig.drop 32) = v at *
  have t32 : (sig.take 32).length = 32 := by simp; omega
  have ea : ((curveOrder : Int) - (v : Int)).natAbs = curveOrder - v := by omega
  rw [ea]
  have hbig : v > halfOrder := by
    have h1 : halfOrder + 2 ^ 240 < curveOrder := by decide +kernel
    clear hv ea
    generalize halfOrder = a at *
    generalize curveOrder = b at *
    generalize 2 ^ 240 = c at *
    omega
  rw [if_pos hbig]
  have l1 := (OwKeychain.bigBytes_length_le (curveOrder - v) 30).mpr (by
    rw [show (256 : Nat) ^ 30 = 2 ^ 240 by norm_num]
    exact hsmall)
  rw [List.length_append, t32, OwKeychain.pad_length _ (by omega)]
  omega

/-- The public key that `signRawTransactionHash` puts beside a signature. -/
def Signer.pub (S : Signer) (key : Bytes) : Bytes := S.compress ((S.genPub key).getD [])

theorem sign_inv {S : Signer} {hash key hb : Bytes} {sp : SigPub}
    (hd : Hex.decode hash = .ok hb) (h : signRawTransactionHash S hash key = .ok sp) :
    ∃ s, S.sign key hb = some s ∧ sp = ⟨serilizeS s, S.pub key⟩ := by
  unfold signRawTransactionHash at h
  rw [hd] at h
  simp only at h
  split at h
  · cases h
  split at h
  · cases h
  rename_i s ho
  split at h
  · cases h
  split at h
  · cases h
  rename_i pub hp
  cases h
  exact ⟨s, ho, by simp [Signer.pub, hp]⟩

theorem sign_verifies {C : Btc.Curve} {S : Signer} (law : Ecdsa C curveOrder S.sign S.pub) {key hb s : Bytes} (ho : S.sign key hb = some s)
    (h240 : 2 ^ 240 ≤ curveOrder - beNat (s.drop 32)) :
    SigPub.Wf ⟨serilizeS s, S.pub key⟩ ∧ C.decompress (S.pub key) ≠ [] ∧
      C.verify ((C.decompress (S.pub key)).drop 1) hb (serilizeS s) = true := by
  have hl := law.size _ _ _ ho
  have hlt := law.s_lt _ _ _ ho
  obtain ⟨q1, q2, q3⟩ := low_s s hl hlt
  have q3 := q3 h240
  obtain ⟨p0, pt, e1, e2⟩ := law.correct _ _ _ ho
  refine ⟨⟨q3, law.pub_size _ _ _ ho⟩, by rw [e1]; simp, ?_⟩
  rw [e1, List.drop_succ_cons, List.drop_zero]
  by_cases c : beNat (s.drop 32) ≤ curveOrder - beNat (s.drop 32)
  · have : serilizeS s = s := by
      rw [← List.take_append_drop 32 (serilizeS s), q1]
      conv_rhs => rw [← List.take_append_drop 32 s]
      congr 1
      exact beNat_inj (by simp [q3, hl]) (by rw [q2, min_eq_left c])
    rw [this]
    exact e2
  · exact law.negate _ _ _ _ e2 hl q3 q1 (by rw [q2, min_eq_right (by omega)])

theorem forall₂_right {α β : Type} {R : α → β → Prop} {l : List α} {m : List β} (h : List.Forall₂ R l m) : ∀ b ∈ m, ∃ a ∈ l, R a b := by
  induction h with
  | nil => simp
  | cons h1 _ ih =>
    intro b hb
    rcases List.mem_cons.mp hb with rfl | hb
    · exact ⟨_, by simp, h1⟩
    · obtain ⟨a, ha, h⟩ := ih b hb
      exact ⟨a, by simp [ha], h⟩

theorem created_combine {H : Hashes} {C : Btc.Curve} {S : Signer} (law : Ecdsa C curveOrder S.sign S.pub) {nonce : UInt32}
    {gasPrice gasLimit : UInt64} {payer script text hash : Bytes} (hc : Created H nonce gasPrice gasLimit payer script text hash)
    {keys : List Bytes} {sps : List SigPub} (hsg : List.Forall₂ (fun k sp => signRawTransactionHash S hash k = .ok sp) keys sps)
    (h240 : ∀ k ∈ keys, ∀ hb s, Hex.decode hash = .ok hb → S.sign k hb = some s → 2 ^ 240 ≤ curveOrder - beNat (s.drop 32)) :
    ∃ b, Hex.decode text = .ok (b ++ [0]) ∧
      verifyAndCombine H C text sps = .ok (true, Hex.encode (b ++ [UInt8.ofNat sps.length] ++ sps.flatMap Spec.ontSig)) := by
  obtain ⟨b, t, e1, e2, e3, -, -, -, -, -, e9⟩ := hc.tx
  have hd : Hex.decode hash = .ok (H.hash .sha256 (H.hash .doubleSha256 b.dropLast)) := by rw [e9, Hex.decode_encode]
  have each : ∀ sp ∈ sps, SigPub.Wf sp ∧ C.decompress sp.publicKey ≠ [] ∧
      C.verify ((C.decompress sp.publicKey).drop 1) (H.hash .sha256 (H.hash .doubleSha256 b.dropLast)) sp.signature = true := by
    intro sp hsp
    obtain ⟨k, hk, hs⟩ := forall₂_right hsg sp hsp
    obtain ⟨s, ho, rfl⟩ := sign_inv hd hs
    exact sign_verifies law ho (h240 k hk _ s hd ho)
  obtain ⟨hw, hpl⟩ := decode_wf e2
  have hcan := C39_decode_canonical b t e2 e3
  obtain ⟨b', f1, f2, -⟩ := C39_combine_partial H C t sps hw e3 hpl (fun s hs => (each s hs).1)
  rw [hcan] at f1
  have f1 := Res.ok.inj f1
  subst f1
  rw [List.dropLast_concat] at each
  have et : verifyAndCombine H C text sps = verifyAndCombine H C (Hex.encode (b' ++ [0])) sps := by
    unfold verifyAndCombine
    rw [e1, Hex.decode_encode]
  exact ⟨b', e1, by rw [et, f2 fun s hs => (each s hs).2]⟩

end Ontology

/-- C129 for Ontology transfers, when n - s is at least 2^240 for every signature made: the signatures by any keys, in any number, complete the
transaction. Missing: the other signatures, see `C129_ontology_violated`. -/
theorem C129_ontology_partial (H : Hashes) (C : Btc.Curve) (S : Ontology.Signer) (law : Ecdsa C Ontology.curveOrder S.sign S.pub)
    (nonce : UInt32) (gasPrice gasLimit : UInt64) (s : Ontology.TxState) (amount : UInt64) (f t p : Bytes)
    (hf : Ontology.IsAddress H s.from_ f) (ht : Ontology.IsAddress H s.to_ t) (hp : Ontology.IsAddress H (if s.payer = [] then s.from_ else s.payer) p)
    (ha : s.assetType = 0 ∨ s.assetType = 1) :
    ∃ text hash signers b, Ontology.create H nonce gasPrice gasLimit s amount = .ok (text, hash, signers) ∧ text = Hex.encode (b ++ [0]) ∧
      ∀ keys sps, List.Forall₂ (fun k sp => Ontology.signRawTransactionHash S hash k = .ok sp) keys sps →
        (∀ k ∈ keys, ∀ hb z, Hex.decode hash = .ok hb → S.sign k hb = some z → 2 ^ 240 ≤ Ontology.curveOrder - beNat (z.drop 32)) →
        Ontology.verifyAndCombine H C text sps = .ok (true, Hex.encode (b ++ [UInt8.ofNat sps.length] ++ sps.flatMap Spec.ontSig)) := by
  obtain ⟨text, hash, script, h1, h2, -⟩ := C69_transfer H nonce gasPrice gasLimit s amount f t p hf ht hp ha
  obtain ⟨b, hb, -⟩ := Ontology.created_combine law h2 (keys := []) (sps := []) .nil (by simp)
  have he : text = Hex.encode (b ++ [0]) := by
    unfold Ontology.create Ontology.createWith at h1
    obtain ⟨_, _, h1⟩ := Res.bind_eq_ok.mp h1
    obtain ⟨_, _, h1⟩ := Res.bind_eq_ok.mp h1
    obtain ⟨x, _, h1⟩ := Res.bind_eq_ok.mp h1
    simp only [Res.ok.injEq, Prod.mk.injEq] at h1
    rw [← h1.1, Hex.decode_encode] at hb
    rw [← h1.1, Res.ok.inj hb]
  refine ⟨text, hash, _, b, h1, he, fun keys sps hsg h240 => ?_⟩
  obtain ⟨b', hb', h⟩ := Ontology.created_combine law h2 hsg h240
  rw [hb] at hb'
  have := List.append_cancel_right (Res.ok.inj hb')
  rw [h, this]

/-- Where C129 fails for Ontology: a signature with n - s below 2^240 is returned with fewer than 64 bytes, and combining answers with an
error. -/
theorem C129_ontology_violated (H : Hashes) (C : Btc.Curve) (h64 : Accepts64 C) (S : Ontology.Signer) (law : Ecdsa C Ontology.curveOrder S.sign S.pub)
    (nonce : UInt32) (gasPrice gasLimit : UInt64) (payer script text hash key hb z pub : Bytes)
    (hc : Ontology.Created H nonce gasPrice gasLimit payer script text hash) (hd : Hex.decode hash = .ok hb) (hk : key.length = 32)
    (ho : S.sign key hb = some z) (hg : S.genPub key = some pub) (hsmall : Ontology.curveOrder - beNat (z.drop 32) < 2 ^ 240) :
    ∃ sp, Ontology.signRawTransactionHash S hash key = .ok sp ∧ sp.signature.length < 64 ∧
      Ontology.verifyAndCombine H C text [sp] = .err := by
  obtain ⟨b, t, e1, e2, e3, -, -, -, -, -, e9⟩ := hc.tx
  have h32 : hb.length = 32 := by
    rw [e9, Hex.decode_encode] at hd
    cases hd
    rw [H.size]
    rfl
  have hl := law.size _ _ _ ho
  have hw := Ontology.short_s z hl (law.s_lt _ _ _ ho) hsmall
  obtain ⟨p0, pt, g1, -⟩ := law.correct _ _ _ ho
  refine ⟨⟨Ontology.serilizeS z, S.pub key⟩, ?_, hw, ?_⟩
  · unfold Ontology.signRawTransactionHash
    rw [hd]
    simp only [ho, hg]
    rw [if_neg (by omega), if_neg (by omega)]
    simp [Ontology.Signer.pub, hg]
  · unfold Ontology.verifyAndCombine
    rw [e1, Res.bind_ok, e2, Res.bind_ok]
    have : Ontology.verifyAll C (Ontology.signHash H b) [⟨Ontology.serilizeS z, S.pub key⟩] = .ok false := by
      unfold Ontology.verifyAll
      rw [if_neg (by rw [g1]; simp), if_pos]
      rw [← Bool.not_eq_true]
      intro hv
      have : (Ontology.serilizeS z).length = 64 := h64 _ _ _ hv
      omega
    rw [this, Res.bind_ok]
    rfl

end Verif
