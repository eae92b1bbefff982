import Verif.Model.Binance
import Verif.Props.BtcSig
import Verif.Lemmas.Hex
import Mathlib.Logic.Equiv.List

/-!
C119: Binance Chain transfers. The SDK's codecs are parameters; what is assumed of them is `Faithful`: reading back what was written.
-/

namespace Verif
open Binance

namespace Binance

/-- The SDK reads back what it has written: the JSON document with its messages, and the binary transaction. -/
structure Faithful {M : Type} (S : Sdk M) : Prop where
  doc : ∀ (chain : Bytes) (acc seq : Int) (ms : List M) (memo : Bytes) (source : Int) (data : Bytes), ∃ raws : List Bytes,
    S.readDoc (S.signBytes chain acc seq ms memo source data) = some ⟨chain, acc, seq, memo, raws, source, data⟩ ∧
      raws.map S.readMsg = ms.map some
  binary : ∀ t, ∃ b, S.marshalTx t = some b ∧ S.unmarshalTx b = some t

instance : Encodable UInt8 := Encodable.ofLeftInverse UInt8.toNat UInt8.ofNat (by intro b; simp)

/-- A codec for any encodable type: the number of the value, in unary. -/
def unary {α : Type} [Encodable α] (x : α) : Bytes := List.replicate (Encodable.encode x) 0
def unary' {α : Type} [Encodable α] (b : Bytes) : Option α := Encodable.decode b.length

theorem unary_spec {α : Type} [Encodable α] (x : α) : unary' (unary x) = some x := by simp [unary, unary']

/-- An SDK meeting the assumption; messages are texts. Used only to show that the assumption can be met. -/
def toySdk : Sdk Bytes where
  decodeAndConvert a := some (bech32Prefix, a)
  createSendMsg src _ ts := src ++ ts.flatMap (·.toAddr)
  signBytes chain acc seq ms memo source data := unary (chain, acc, seq, ms, memo, source, data)
  readDoc b := (unary' b : Option (Bytes × Int × Int × List Bytes × Bytes × Int × Bytes)).map
    (fun x => ⟨x.1, x.2.1, x.2.2.1, x.2.2.2.2.1, x.2.2.2.1, x.2.2.2.2.2.1, x.2.2.2.2.2.2⟩)
  readMsg := some
  marshalTx t := some (unary (t.msgs, t.signatures.map (fun s => (s.accountNumber, s.sequence, s.pubKey, s.signature)), t.memo, t.source, t.data))
  unmarshalTx b := (unary' b : Option (List Bytes × List (Int × Int × Bytes × Bytes) × Bytes × Int × Bytes)).map
    (fun x => ⟨x.1, x.2.1.map (fun s => ⟨s.1, s.2.1, s.2.2.1, s.2.2.2⟩), x.2.2.1, x.2.2.2.1, x.2.2.2.2⟩)

theorem toySdk_faithful : Faithful toySdk where
  doc chain acc seq ms memo source data := by
    refine ⟨ms, ?_, rfl⟩
    simp only [toySdk, unary_spec, Option.map_some]
  binary t := by
    refine ⟨_, rfl, ?_⟩
    simp only [toySdk, unary_spec, Option.map_some, List.map_map]
    obtain ⟨ms, sigs, memo, source, data⟩ := t
    simp [Function.comp_def]

/-- What the combining call computes once the document is read. -/
theorem combine_eq {M : Type} (S : Sdk M) (H : Hashes) (E : Btc.Curve) (text sigText pubText : Bytes) (doc : Doc) (raw : Bytes) (raws : List Bytes)
    (m : M) (sig pub p : Bytes) (hdoc : S.readDoc text = some doc) (hraw : doc.msgs = raw :: raws) (hm : S.readMsg raw = some m)
    (hs : Hex.decode sigText = .ok sig) (hp : Hex.decode pubText = .ok pub) (hsl : sig.length = 64) (hpl : pub.length = 33)
    (hd : slice (E.decompress pub) 1 (E.decompress pub).length = .ok p) :
    verifyAndCombineRawTransaction S H E text sigText pubText =
      if E.verify p (H.hash .sha256 (S.signBytes chainID doc.accountNumber doc.sequence [m] doc.memo doc.source doc.data)) sig = false then .ok (false, [])
      else match S.marshalTx ⟨[m], [⟨doc.accountNumber, doc.sequence, pub, sig⟩], doc.memo, doc.source, doc.data⟩ with
        | none => .ok (false, [])
        | some bz => .ok (true, Hex.encode bz) := by
  unfold verifyAndCombineRawTransaction
  rw [hdoc]
  simp only
  rw [hraw]
  show Res.bind (.ok raw) _ = _
  simp only [Res.bind, hm, hs, hp, hsl, hpl, ne_eq, not_true_eq_false, if_false]
  rw [hd]
  rfl

/-- The sender's and the receiver's address, read. -/
structure Reads {M : Type} (S : Sdk M) (addr payload : Bytes) : Prop where
  read : S.decodeAndConvert addr = some (bech32Prefix, payload)

theorem create_eq {M : Type} (S : Sdk M) (H : Hashes) (fromAddr toAddr denom memo : Bytes) (amount acc seq source : Int) (out : Bytes × Bytes) :
    createEmptyTransactionAndHash S H fromAddr toAddr denom amount acc seq source memo = .ok out ↔
      ∃ a b, Reads S fromAddr a ∧ Reads S toAddr b ∧
        out.1 = S.signBytes chainID acc seq [S.createSendMsg a [⟨denom, amount⟩] [⟨b, [⟨denom, amount⟩]⟩]] memo source [] ∧
        out.2 = Hex.encode (H.hash .sha256 out.1) := by
  unfold createEmptyTransactionAndHash createSendMsg
  constructor
  · intro h
    obtain ⟨m, hm, h⟩ := Res.bind_eq_ok.mp h
    split at hm
    · cases hm
    · rename_i p src hf
      split at hm
      · cases hm
      · rename_i hp
        split at hm
        · cases hm
        · rename_i p' to' ht
          split at hm
          · cases hm
          · rename_i hp'
            cases hm
            cases h
            have hp := not_not.mp hp
            have hp' := not_not.mp hp'
            subst hp; subst hp'
            exact ⟨src, to', ⟨hf⟩, ⟨ht⟩, rfl, rfl⟩
  · rintro ⟨a, b, ⟨ha⟩, ⟨hb⟩, h1, h2⟩
    rw [ha]
    simp only [ne_eq, not_true_eq_false, if_false]
    rw [hb]
    simp only [not_true_eq_false, if_false]
    show Res.ok _ = _
    obtain ⟨o1, o2⟩ := out
    simp only at h1 h2
    rw [h2, h1]

end Binance

/-- C119, texts of this package: creation succeeds exactly for two addresses with the prefix `bnb`. The text it returns is combined with a signature
of 64 bytes and a key of 33 bytes that decompresses exactly when the signature is valid under the key for the returned hash, and then the returned
transaction decodes to the one transfer asked for, with the given memo, source, account and sequence numbers, key and signature. -/
theorem C119_combine_partial {M : Type} (S : Sdk M) (hS : Faithful S) (H : Hashes) (E : Btc.Curve) (fromAddr toAddr denom memo : Bytes)
    (amount acc seq source : Int) :
    ((∃ out, createEmptyTransactionAndHash S H fromAddr toAddr denom amount acc seq source memo = .ok out) ↔
      ∃ a b, Reads S fromAddr a ∧ Reads S toAddr b) ∧
    ∀ text hashText, createEmptyTransactionAndHash S H fromAddr toAddr denom amount acc seq source memo = .ok (text, hashText) →
      ∃ hash a b, Hex.decode hashText = .ok hash ∧ hash.length = 32 ∧ Reads S fromAddr a ∧ Reads S toAddr b ∧
        ∀ sigText pubText sig pub p : Bytes, Hex.decode sigText = .ok sig → Hex.decode pubText = .ok pub → sig.length = 64 → pub.length = 33 →
          ∀ pre : UInt8, E.decompress pub = pre :: p →
          if E.verify p hash sig then
            ∃ signed bz, verifyAndCombineRawTransaction S H E text sigText pubText = .ok (true, signed) ∧ Hex.decode signed = .ok bz ∧
              decodeRawTransaction S bz = .ok {
                msgs := [S.createSendMsg a [⟨denom, amount⟩] [⟨b, [⟨denom, amount⟩]⟩]],
                signatures := [{ accountNumber := acc, sequence := seq, pubKey := pub, signature := sig }], memo := memo, source := source, data := [] }
          else verifyAndCombineRawTransaction S H E text sigText pubText = .ok (false, []) := by
  constructor
  · constructor
    · rintro ⟨out, h⟩
      obtain ⟨a, b, ha, hb, _⟩ := (create_eq ..).mp h
      exact ⟨a, b, ha, hb⟩
    · rintro ⟨a, b, ha, hb⟩
      refine ⟨(S.signBytes chainID acc seq [S.createSendMsg a [⟨denom, amount⟩] [⟨b, [⟨denom, amount⟩]⟩]] memo source [],
        Hex.encode (H.hash .sha256 (S.signBytes chainID acc seq [S.createSendMsg a [⟨denom, amount⟩] [⟨b, [⟨denom, amount⟩]⟩]] memo source []))), ?_⟩
      exact (create_eq ..).mpr ⟨a, b, ha, hb, rfl, rfl⟩
  intro text hashText h
  obtain ⟨a, b, ha, hb, h1, h2⟩ := (create_eq ..).mp h
  simp only at h1 h2
  refine ⟨H.hash .sha256 text, a, b, by rw [h2, Hex.decode_encode], H.size _ _, ha, hb, ?_⟩
  intro sigText pubText sig pub p hs hp hsl hpl pre hdc
  obtain ⟨raws, hdoc, hraws⟩ := hS.doc chainID acc seq [S.createSendMsg a [⟨denom, amount⟩] [⟨b, [⟨denom, amount⟩]⟩]] memo source []
  rw [← h1] at hdoc
  match raws, hraws with
  | [raw], hraws =>
    have hm : S.readMsg raw = some (S.createSendMsg a [⟨denom, amount⟩] [⟨b, [⟨denom, amount⟩]⟩]) := by simpa using hraws
    have hd : slice (E.decompress pub) 1 (E.decompress pub).length = .ok p := by
      rw [hdc]; simp [slice]
    have hc := combine_eq S H E text sigText pubText _ raw [] _ sig pub p hdoc rfl hm hs hp hsl hpl hd
    simp only at hc
    rw [← h1] at hc
    split
    · rename_i hv
      rw [hv, if_neg (by simp)] at hc
      obtain ⟨bz, hb1, hb2⟩ := hS.binary ⟨[S.createSendMsg a [⟨denom, amount⟩] [⟨b, [⟨denom, amount⟩]⟩]], [⟨acc, seq, pub, sig⟩], memo, source, []⟩
      rw [hb1] at hc
      refine ⟨_, bz, hc, Hex.decode_encode _, ?_⟩
      unfold decodeRawTransaction
      rw [hb2]
      rfl
    · rename_i hv
      rw [hc, if_pos (by simpa using hv)]
  | [], hraws => simp at hraws
  | _ :: _ :: _, hraws => simp at hraws

/-- Nothing is combined from any text without a valid signature: acceptance means that the signature of 64 bytes is valid under the decompressed key
of 33 bytes for the hash of the first message and the numbers of the text, on the package's chain. Missing: the chain and the other messages of the text
(`C119_chain_violated`, `C119_messages_violated`). -/
theorem C119_sound_partial {M : Type} (S : Sdk M) (H : Hashes) (E : Btc.Curve) (text sigText pubText signed : Bytes)
    (h : verifyAndCombineRawTransaction S H E text sigText pubText = .ok (true, signed)) :
    ∃ doc raw raws m sig pub pre p, S.readDoc text = some doc ∧ doc.msgs = raw :: raws ∧ S.readMsg raw = some m ∧
      Hex.decode sigText = .ok sig ∧ sig.length = 64 ∧ Hex.decode pubText = .ok pub ∧ pub.length = 33 ∧ E.decompress pub = pre :: p ∧
      E.verify p (H.hash .sha256 (S.signBytes (asc "Binance-Chain-Tigris") doc.accountNumber doc.sequence [m] doc.memo doc.source doc.data)) sig = true := by
  have h0 := h
  unfold verifyAndCombineRawTransaction at h
  split at h
  · cases h
  rename_i doc hdoc
  obtain ⟨raw, hraw, h⟩ := Res.bind_eq_ok.mp h
  split at h
  · cases h
  rename_i m hm
  split at h
  case h_2 => cases h
  rename_i sig hs
  split at h
  · cases h
  rename_i hsl
  split at h
  case h_2 => cases h
  rename_i pub hp
  split at h
  · cases h
  rename_i hpl
  obtain ⟨p, hd, h⟩ := Res.bind_eq_ok.mp h
  simp only at h
  split at h
  · cases h
  rename_i hv
  have hmsgs : ∃ raws, doc.msgs = raw :: raws := by
    unfold index at hraw
    split at hraw
    · rename_i x hx
      cases hraw
      rcases hq : doc.msgs with _ | ⟨y, ys⟩
      · rw [hq] at hx; simp at hx
      · rw [hq] at hx; simp at hx; exact ⟨ys, by rw [hx]⟩
    · cases hraw
  obtain ⟨raws, hmsgs⟩ := hmsgs
  have hdc : ∃ pre, E.decompress pub = pre :: p := by
    unfold slice at hd
    split at hd
    · rename_i hl
      cases hd
      rcases hq : E.decompress pub with _ | ⟨y, ys⟩
      · rw [hq] at hl; simp at hl
      · exact ⟨y, by simp⟩
    · cases hd
  obtain ⟨pre, hdc⟩ := hdc
  exact ⟨doc, raw, raws, m, sig, pub, pre, p, hdoc, hmsgs, hm, hs, by simpa using hsl, hp, by simpa using hpl, hdc, (Bool.not_eq_false _).mp hv⟩

/-- Where C119 fails (1): the chain named in the text is not looked at. A text for any other chain is combined with a signature for the
hash on the main chain; if the two hashes differ and the signature is valid for that hash only, the returned
transaction carries a signature that is not valid for the text given. -/
theorem C119_chain_violated {M : Type} (S : Sdk M) (hS : Faithful S) (H : Hashes) (chain memo : Bytes) (acc seq source : Int) (m : M)
    (hne : H.hash .sha256 (S.signBytes chain acc seq [m] memo source []) ≠ H.hash .sha256 (S.signBytes chainID acc seq [m] memo source [])) :
    ∃ (E : Btc.Curve) (sig pub pre p : Bytes) (signed : Bytes), E.decompress pub = pre ++ p ∧ pre.length = 1 ∧
      E.verify p (H.hash .sha256 (S.signBytes chain acc seq [m] memo source [])) sig = false ∧
      verifyAndCombineRawTransaction S H E (S.signBytes chain acc seq [m] memo source []) (Hex.encode sig) (Hex.encode pub) = .ok (true, signed) := by
  obtain ⟨raws, hdoc, hraws⟩ := hS.doc chain acc seq [m] memo source []
  match raws, hraws with
  | [raw], hraws =>
    have hm : S.readMsg raw = some m := by simpa using hraws
    let E : Btc.Curve := ⟨fun _ => List.replicate 65 4, fun _ h _ => h == H.hash .sha256 (S.signBytes chainID acc seq [m] memo source [])⟩
    obtain ⟨bz, hb1, _⟩ := hS.binary ⟨[m], [⟨acc, seq, List.replicate 33 2, List.replicate 64 1⟩], memo, source, []⟩
    refine ⟨E, List.replicate 64 1, List.replicate 33 2, [4], List.replicate 64 4, Hex.encode bz, rfl, rfl, by simpa [E] using hne, ?_⟩
    rw [combine_eq S H E _ _ _ _ raw [] m (List.replicate 64 1) (List.replicate 33 2) (List.replicate 64 4) hdoc rfl hm
      (Hex.decode_encode _) (Hex.decode_encode _) (by simp) (by simp) rfl]
    rw [if_neg (by simp [E])]
    simp only
    rw [hb1]
  | [], hraws => simp at hraws
  | _ :: _ :: _, hraws => simp at hraws

/-- Where C119 fails (2): messages after the first are dropped. A text with more messages is combined exactly as the text with the first one. -/
theorem C119_messages_violated {M : Type} (S : Sdk M) (hS : Faithful S) (H : Hashes) (E : Btc.Curve) (memo : Bytes) (acc seq source : Int)
    (m : M) (ms : List M) (sigText pubText : Bytes) :
    verifyAndCombineRawTransaction S H E (S.signBytes chainID acc seq (m :: ms) memo source []) sigText pubText =
      verifyAndCombineRawTransaction S H E (S.signBytes chainID acc seq [m] memo source []) sigText pubText := by
  obtain ⟨raws, hdoc, hraws⟩ := hS.doc chainID acc seq (m :: ms) memo source []
  obtain ⟨raws', hdoc', hraws'⟩ := hS.doc chainID acc seq [m] memo source []
  match raws, hraws, raws', hraws' with
  | raw :: rs, hraws, raw' :: rs', hraws' =>
    have hm : S.readMsg raw = some m := by simp at hraws; exact hraws.1
    have hm' : S.readMsg raw' = some m := by simp at hraws'; exact hraws'.1
    unfold verifyAndCombineRawTransaction
    rw [hdoc, hdoc']
    simp only
    show Res.bind (.ok raw) _ = Res.bind (.ok raw') _
    simp only [Res.bind, hm, hm']
  | [], hraws, _, _ => simp at hraws
  | _ :: _, _, [], hraws' => simp at hraws'

/-- Where C119 fails (3): a text without messages, and a key that does not decompress, make the call panic instead of returning false. -/
theorem C119_panic_violated {M : Type} (S : Sdk M) (hS : Faithful S) (H : Hashes) (E : Btc.Curve) (chain memo : Bytes) (acc seq source : Int) (m : M) :
    (∀ sigText pubText : Bytes, verifyAndCombineRawTransaction S H E (S.signBytes chain acc seq [] memo source []) sigText pubText = .panic) ∧
    (∀ sig pub : Bytes, sig.length = 64 → pub.length = 33 → E.decompress pub = [] →
      verifyAndCombineRawTransaction S H E (S.signBytes chain acc seq [m] memo source []) (Hex.encode sig) (Hex.encode pub) = .panic) := by
  constructor
  · intro sigText pubText
    obtain ⟨raws, hdoc, hraws⟩ := hS.doc chain acc seq [] memo source []
    match raws, hraws with
    | [], _ => unfold verifyAndCombineRawTransaction; rw [hdoc]; rfl
    | _ :: _, hraws => simp at hraws
  · intro sig pub hsl hpl hd
    obtain ⟨raws, hdoc, hraws⟩ := hS.doc chain acc seq [m] memo source []
    match raws, hraws with
    | raw :: rs, hraws =>
      have hm : S.readMsg raw = some m := by simp at hraws; exact hraws.1
      unfold verifyAndCombineRawTransaction
      rw [hdoc]
      simp only
      show Res.bind (.ok raw) _ = _
      simp only [Res.bind, hm, Hex.decode_encode, hsl, hpl, ne_eq, not_true_eq_false, if_false]
      rw [hd]
      rfl
    | [], hraws => simp at hraws

/-- C119, signing: wrong hash texts are refused; otherwise the returned signature has the library's r and the lower of s and n - s, in 64 bytes when
n - s has at most one leading zero byte. Missing: the other signatures (`C119_width_violated`). -/
theorem C119_sign_partial (sign : Bytes → Bytes → Option Bytes) (hashText key : Bytes) :
    (∀ out, signRawTransaction sign hashText key = .ok out → ∃ h, Hex.decode hashText = .ok h ∧ h.length = 32) ∧
    ∀ h sig : Bytes, Hex.decode hashText = .ok h → h.length = 32 → sign key h = some sig → sig.length = 64 →
      beNat (sig.drop 32) < Btc.curveOrder → 2 ^ 240 ≤ Btc.curveOrder - beNat (sig.drop 32) →
      ∃ out, signRawTransaction sign hashText key = .ok out ∧ out.length = 64 ∧ out.take 32 = sig.take 32 ∧
        beNat (out.drop 32) = min (beNat (sig.drop 32)) (Btc.curveOrder - beNat (sig.drop 32)) := by
  constructor
  · intro out h
    unfold signRawTransaction at h
    split at h
    · rename_i hb hh
      split at h
      · cases h
      · rename_i hl
        exact ⟨hb, hh, by simpa using hl⟩
    · cases h
  · intro h sig hh hl hs hsl ho h240
    obtain ⟨p1, p2, p3⟩ := C26_low_s_partial sig hsl ho
    refine ⟨Btc.serilizeS sig, ?_, p3 h240, p1, p2⟩
    unfold signRawTransaction
    rw [hh]
    simp only
    rw [if_neg (by simpa using hl), hs]
    simp only
    rw [if_neg (by omega)]

/-- Where C119 fails (4): when n - s has two or more leading zero bytes the signature has fewer than 64 bytes, which combining refuses. -/
theorem C119_width_violated (sign : Bytes → Bytes → Option Bytes) (hashText key h sig : Bytes) (hh : Hex.decode hashText = .ok h) (hl : h.length = 32)
    (hs : sign key h = some sig) (hsl : sig.length = 64) (ho : beNat (sig.drop 32) < Btc.curveOrder)
    (hsmall : Btc.curveOrder - beNat (sig.drop 32) < 2 ^ 240) :
    ∃ out, signRawTransaction sign hashText key = .ok out ∧ out.length < 64 := by
  refine ⟨Btc.serilizeS sig, ?_, C26_width_violated sig hsl ho hsmall⟩
  unfold signRawTransaction
  rw [hh]
  simp only
  rw [if_neg (by simpa using hl), hs]
  simp only
  rw [if_neg (by omega)]

/-- An SDK meeting `Faithful`, addresses it reads, a curve, a signature and a key meeting the hypotheses. -/
example : Faithful toySdk ∧ Reads toySdk (asc "a") (asc "a") ∧ Reads toySdk (asc "b") (asc "b") ∧
    (List.replicate 64 (0x90 : UInt8)).length = 64 ∧ (List.replicate 33 (2 : UInt8)).length = 33 ∧
    beNat ((List.replicate 64 (0x90 : UInt8)).drop 32) < Btc.curveOrder ∧ 2 ^ 240 ≤ Btc.curveOrder - beNat ((List.replicate 64 (0x90 : UInt8)).drop 32) :=
  ⟨toySdk_faithful, ⟨rfl⟩, ⟨rfl⟩, by decide +kernel⟩

/-- With this SDK, texts for two chains are different, so that a hash can tell them apart. -/
example : toySdk.signBytes (asc "x") 0 0 [asc "m"] [] 0 [] ≠ toySdk.signBytes chainID 0 0 [asc "m"] [] 0 [] := by
  intro h
  have h1 := congrArg toySdk.readDoc h
  simp only [toySdk, unary_spec, Option.map_some, Option.some.injEq, Doc.mk.injEq] at h1
  exact absurd h1.1 (by decide)

end Verif
