import Verif.Props.BtcVariantsSign
import Verif.Props.BtcSpendVerify

/-! Properties C92 and C123 for all kinds of inputs of the packages derived from `btcTransaction` (Bitcoin Cash, Bitcoin SV, CXC, HC). -/

namespace Verif
open Verif.Spec Verif.Btc Verif.BtcVariants

namespace BtcVariants

/-- The packages that recognise more than one kind of input. -/
def HasScripts (V : Variant) : Prop := V = bch ∨ V = bsv ∨ V = cxc ∨ V = hc

theorem HasScripts.version_lt {V : Variant} (h : HasScripts V) : V.version < 2 ^ 32 := by
  rcases h with rfl | rfl | rfl | rfl <;> decide

/-- What the original package recognises is recognised in the same way. -/
theorem check_agree {V : Variant} (hV : HasScripts V) {lock redeem : Bytes} {x : Bytes × Bytes × InType}
    (h : checkScriptType lock redeem = .ok x) : V.check lock redeem = .ok x := by
  have hb : checkBch lock redeem = .ok x := by
    unfold checkScriptType at h
    unfold checkBch
    cases hd : Hex.decode lock with
    | err => simp [hd] at h
    | panic => simp [hd] at h
    | ok s =>
      simp only [hd] at h ⊢
      split at h
      · rename_i c
        rw [if_pos c]
        split at h
        · simp at h
        · exact h
      · rename_i c
        rw [if_neg c]
        exact h
  have hx : checkCxc lock redeem = .ok x := by
    unfold checkScriptType at h
    unfold checkCxc
    cases hd : Hex.decode lock with
    | err => simp [hd] at h
    | panic => simp [hd] at h
    | ok s =>
      simp only [hd] at h ⊢
      split at h
      · rename_i c
        rw [if_pos ⟨Or.inl c.1, c.2⟩]
        exact h
      · split at h
        · rename_i c
          rw [if_neg (by rintro ⟨h1 | h1, -⟩ <;> omega), if_pos ⟨Or.inl c.1, c.2⟩]
          exact h
        · split at h
          · rename_i c
            rw [if_neg (by rintro ⟨h1 | h1, -⟩ <;> omega), if_neg (by rintro ⟨h1 | h1, -⟩ <;> omega), if_pos c]
            exact h
          · simp at h
  rcases hV with rfl | rfl | rfl | rfl
  · exact hb
  · exact hb
  · exact hx
  · exact h

theorem insertLoop_agree {V : Variant} (hV : HasScripts V) {H : Hashes} {seg sw : Bool} {hashes : List TxHash} : ∀ (ins : List TxIn)
    (us : List TxUnlock) (idx : Nat), (∀ u ∈ us, ∃ x, checkScriptType u.lockScript u.redeemScript = .ok x) →
    insertLoop V H seg sw hashes idx ins us = Btc.insertLoop H seg sw hashes idx ins us
  | [], us, idx, _ => by unfold BtcVariants.insertLoop Btc.insertLoop; rfl
  | _ :: _, [], idx, _ => by unfold BtcVariants.insertLoop Btc.insertLoop; rfl
  | i :: is, u :: us, idx, h => by
    obtain ⟨⟨lock, redeem, ty⟩, hx⟩ := h u (by simp)
    unfold BtcVariants.insertLoop Btc.insertLoop
    rw [hx, check_agree hV hx]
    simp only
    rw [insertLoop_agree hV is us (idx + 1) (fun v hv => h v (by simp [hv]))]
    cases ty <;> rfl

theorem isSegwit_agree {V : Variant} (hV : HasScripts V) {seg : Bool} (us : List TxUnlock)
    (h : ∀ u ∈ us, ∃ x, checkScriptType u.lockScript u.redeemScript = .ok x) : isSegwit V seg us = Btc.isSegwit seg us := by
  have go : ∀ us : List TxUnlock, (∀ u ∈ us, ∃ x, checkScriptType u.lockScript u.redeemScript = .ok x) →
      isSegwit.go V seg us = Btc.isSegwit.go seg us := by
    intro us
    induction us with
    | nil => intro _; rfl
    | cons u us ih =>
      intro h
      obtain ⟨x, hx⟩ := h u (by simp)
      unfold isSegwit.go Btc.isSegwit.go
      rw [hx, check_agree hV hx, Res.bind_ok, Res.bind_ok, ih (fun v hv => h v (by simp [hv]))]
  cases us with
  | nil => rfl
  | cons u us => exact go (u :: us) h

theorem unlocked_version (sha : Bytes → Bytes) (t : RawTx) (l : List Entry) (v : Nat) : ∃ r,
    unlockedBytes sha t l = leBytes 4 t.version ++ r ∧ unlockedBytes sha { t with version := v } l = leBytes 4 v ++ r :=
  ⟨_, by unfold unlockedBytes; simp only [List.append_assoc]; rfl, by unfold unlockedBytes; simp only [List.append_assoc]; rfl⟩

/-- Inserting signatures, whatever the version. -/
theorem insert_fillsV {V : Variant} (hV : HasScripts V) {sty : UInt8} (H : Hashes) (t : RawTx) (hu : UnsignedV V.version t) (l : List Entry)
    (hl : l.length = t.ins.length) (segwitOn : Bool) (hf : ∀ e ∈ l, Fills sty segwitOn e.unlock e.hash e.expect) :
    insertSignatures V H (Hex.encode t.ser) (l.map Entry.hash) (l.map Entry.unlock) segwitOn =
      .ok (Hex.encode (unlockedBytes (H.hash .sha256) t l)) := by
  have h1 := hu.insPos
  have h3 := hu.outsPos
  have hck : ∀ u ∈ l.map Entry.unlock, ∃ x, checkScriptType u.lockScript u.redeemScript = .ok x := by
    intro u huu
    obtain ⟨e, he, rfl⟩ := List.mem_map.mp huu
    obtain ⟨a, b, c, h, _⟩ := check_fills (hf e he)
    exact ⟨_, h⟩
  have hne : l ≠ [] := by intro h; rw [h] at hl; simp at hl; omega
  have hsw : ∀ e ∈ l, e.expect.stack ≠ [] → l.any (fun e => e.expect.stack ≠ []) = true := by
    intro e he hs
    rw [List.any_eq_true]
    exact ⟨e, he, by simpa using hs⟩
  have h0 : segwitOn = false → l.any (fun e => e.expect.stack ≠ []) = false := by
    intro h
    by_contra hc
    have := stack_seg hf (by simpa using hc)
    rw [h] at this; simp at this
  have hins := insertLoop_fills (H := H) (hashes := l.map Entry.hash) h0 t.ins l 0 hl hf hsw (by
    intro j e hj; simp [hj])
  have hisw : Btc.isSegwit segwitOn (l.map Entry.unlock) = .ok (l.any (fun e => e.expect.stack ≠ [])) := by
    rw [← isSegwit_fills l hf]
    cases l with
    | nil => exact absurd rfl hne
    | cons e l => rfl
  have henc : encodeTx segwitOn { ofRaw t with
      witness := l.any (fun e => e.expect.stack ≠ [])
      vins := List.zipWith (signedIn (H.hash .sha256)) t.ins (l.map Entry.expect) } = .ok (unlockedBytes (H.hash .sha256) t l) := by
    have h2 := encodeTx_fills (H := H) (unsigned_two hu) l hl hf
    obtain ⟨r, e1, e2⟩ := encodeTx_version (w := leBytes 4 t.version) (by simp) h2
    obtain ⟨r', e3, e4⟩ := unlocked_version (H.hash .sha256) t l 2
    rw [e4] at e1
    have : r' = r := List.append_cancel_left e1
    rw [e3, this]
    exact e2
  unfold insertSignatures
  rw [Hex.decode_encode, Res.bind_ok, decode_unsignedV hV.version_lt hu, Res.bind_ok, if_neg]
  · rw [isSegwit_agree hV _ hck, hisw]
    simp only
    rw [if_neg]
    · rw [show (ofRaw t).vins = t.ins.map baseIn from rfl, insertLoop_agree hV _ _ _ hck, hins, Res.bind_ok]
      simp only
      rw [henc, Res.bind_ok]
    · rintro ⟨hc1, hc2⟩
      rw [h0 (by simpa using hc2)] at hc1
      simp at hc1
  · rintro (h | h | h | h | h)
    · exact hne (List.map_eq_nil_iff.mp h)
    · exact hne (List.map_eq_nil_iff.mp h)
    · have := congrArg List.length h
      simp [ofRaw] at this
      rw [this] at h1; simp at h1
    · have := congrArg List.length h
      simp [ofRaw] at this
      rw [this] at h3; simp at h3
    · simp [ofRaw, hl] at h

theorem decodeTxV_fills {v : Nat} (hv : v < 2 ^ 32) {sty : UInt8} {sha : Bytes → Bytes} (h32 : ∀ b, (sha b).length = 32) {seg : Bool} {t : RawTx}
    (hu : UnsignedV v t) (l : List Entry) (hl : l.length = t.ins.length) (hf : ∀ e ∈ l, Fills sty seg e.unlock e.hash e.expect)
    (hr : ∀ e ∈ l, Readable e.expect) (spare : Nat) : decodeTxV v spare seg (unlockedBytes sha t l) = .ok (readTx sha t l) := by
  have h2 := decodeTx_fills h32 (unsigned_two hu) l hl hf hr spare
  obtain ⟨r, e1, e2⟩ := unlocked_version sha t l 2
  rw [e2] at h2
  have h3 := decodeTxV_of hv h2
  rw [e1, hu.version, h3]
  unfold readTx ofRaw
  simp only [hu.version]

/-! ### The messages of the signed transaction -/

theorem bytesForSigBch_noMulti {H : Hashes} {seg : Bool} (t : Tx) (h : ∀ i ∈ t.vins, i.inType = .empty) (lock redeem : Bytes) (ty : InType)
    (st : UInt8) (k : Nat) (amount : UInt64) :
    bytesForSigBch H seg { t with vins := t.vins.map noMulti } lock redeem ty st k amount = bytesForSigBch H seg t lock redeem ty st k amount := by
  have he : ∀ s : Bytes, encodeTx seg { t with vins := (t.vins.map noMulti).modify k (fun i => { i with scriptPub := s }) } =
      encodeTx seg { t with vins := t.vins.modify k (fun i => { i with scriptPub := s }) } := by
    intro s
    rw [modify_map]
    apply encodeTx_noMulti { t with vins := t.vins.modify k (fun i => { i with scriptPub := s }) }
    intro i hi
    simp only at hi
    rw [List.mem_iff_getElem?] at hi
    obtain ⟨j, hj⟩ := hi
    rw [List.getElem?_modify] at hj
    obtain ⟨i0, hj0, rfl⟩ := Option.map_eq_some_iff.mp hj
    have := h i0 (List.mem_of_getElem? hj0)
    split <;> exact this
  have hs := fun r f => segwit_noMulti (H := H) t r k amount f
  unfold bytesForSigBch
  cases ty <;> simp only [he, hs]

theorem hashForSigV_noMulti {V : Variant} (hV : HasScripts V) {H : Hashes} {seg : Bool} {P : AddressPrefix} (t : Tx) (k : Nat) (u : TxUnlock) :
    hashForSig V H seg P { t with vins := t.vins.map noMulti } k u = hashForSig V H seg P t k u := by
  have e : (t.vins.map noMulti).map setEmpty = (t.vins.map setEmpty).map noMulti := by
    simp [setEmpty, noMulti, Function.comp_def]
  have hem : ∀ i ∈ ({ t with vins := t.vins.map setEmpty } : Tx).vins, i.inType = .empty := by
    intro i hi
    obtain ⟨j, _, rfl⟩ := List.mem_map.mp hi
    rfl
  have hb := bytesForSig_noMulti (H := H) (seg := seg) { t with vins := t.vins.map setEmpty } hem
  have hb' := bytesForSigBch_noMulti (H := H) (seg := seg) { t with vins := t.vins.map setEmpty } hem
  simp only at hb hb'
  have hV' : ∀ lock redeem ty st k amount, V.bytesForSig H seg { t with vins := (t.vins.map setEmpty).map noMulti } lock redeem ty st k amount =
      V.bytesForSig H seg { t with vins := t.vins.map setEmpty } lock redeem ty st k amount := by
    rcases hV with rfl | rfl | rfl | rfl
    · exact hb'
    · exact hb'
    · exact hb
    · exact hb
  unfold hashForSig
  simp only [e, hV']

theorem hashesLoopV_congr {V : Variant} {H : Hashes} {seg : Bool} {P : AddressPrefix} : ∀ (us : List TxUnlock) (t t' : Tx) (idx : Nat),
    (∀ k v, hashForSig V H seg P t k v = hashForSig V H seg P t' k v) → hashesLoop V H seg P t idx us = hashesLoop V H seg P t' idx us
  | [], _, _, _, _ => rfl
  | u :: us, t, t', idx, h => by
    rw [hashesLoop, hashesLoop, h, hashesLoopV_congr us (afterSig V seg t idx u) (afterSig V seg t' idx u) (idx + 1)]
    intro k v
    rw [hashForSig_after, hashForSig_after, h]

theorem hashes_signedV {V : Variant} (hV : HasScripts V) {H : Hashes} {P : AddressPrefix} {seg : Bool} {t : RawTx} {sha : Bytes → Bytes}
    {l : List Entry} (hl : l.length = t.ins.length) (us : List TxUnlock) :
    hashesForSig V H seg P (cloneEmpty (readTx sha t l)) us = hashesForSig V H seg P (ofRaw t) us := by
  have hn : ({ cloneEmpty (readTx sha t l) with vins := (cloneEmpty (readTx sha t l)).vins.map noMulti } : Tx) = ofRaw t := by
    have := noMulti_read (sha := sha) t.ins l hl
    unfold cloneEmpty readTx
    simp only [this]
    rfl
  have hlen : (cloneEmpty (readTx sha t l)).vins.length = (ofRaw t).vins.length := by
    simp [cloneEmpty, readTx, ofRaw, hl]
  unfold hashesForSig
  rw [hlen, show (cloneEmpty (readTx sha t l)).vouts = (ofRaw t).vouts from rfl,
    hashesLoopV_congr us (cloneEmpty (readTx sha t l)) (ofRaw t) 0 (fun k v => by rw [← hn, hashForSigV_noMulti hV])]

/-! ### Records -/

theorem newBch_one {f : Hashes → AddressPrefix → Bytes → Res Bytes} {H : Hashes} {d lock redeem : Bytes} {ty : InType} {st : UInt8}
    {P : AddressPrefix} {th : TxHash} (hty : ty = .p2pkh ∨ ty = .p2wpkh ∨ ty = .bech32) (h : newTxHashBch f H d lock redeem ty st P = .ok th) :
    th.nRequired = 0 ∧ ∃ a, th.normal = some ⟨a, st, ⟨none, none⟩⟩ := by
  unfold newTxHashBch at h
  rcases hty with rfl | rfl | rfl <;> simp only at h
  · obtain ⟨x, _, h⟩ := Res.bind_eq_ok.mp h
    obtain ⟨y, _, h⟩ := Res.bind_eq_ok.mp h
    simp only [Res.ok.injEq] at h
    rw [← h]
    exact ⟨rfl, _, rfl⟩
  · obtain ⟨x, _, h⟩ := Res.bind_eq_ok.mp h
    obtain ⟨y, _, h⟩ := Res.bind_eq_ok.mp h
    simp only [Res.ok.injEq] at h
    rw [← h]
    exact ⟨rfl, _, rfl⟩
  · simp at h

theorem newBch_multi {f : Hashes → AddressPrefix → Bytes → Res Bytes} {H : Hashes} {d lock : Bytes} {m : Nat} {keys : List Bytes} {st : UInt8}
    {P : AddressPrefix} {th : TxHash} (h1 : 1 ≤ m) (h2 : m ≤ keys.length) (h3 : keys.length ≤ 15) (hk : ∀ k ∈ keys, k.length = 33)
    (h : newTxHashBch f H d lock (multisigScript m keys) .multi st P = .ok th) :
    th.nRequired = UInt8.ofNat m ∧ th.multi = keys.map (fun k => ⟨Hex.encode k, st, ⟨none, none⟩⟩) := by
  refine newTxHash_multi (H := H) (lock := lock) (P := P) (d := d) h1 h2 h3 hk ?_
  exact h

/-- The record that `CreateRawTransactionHashForSig` returns for an input. -/
theorem shapeV {V : Variant} (hV : HasScripts V) {H : Hashes} {seg : Bool} {P : AddressPrefix} {t : Tx} {k : Nat} {u : TxUnlock} {th : TxHash}
    {lock redeem : Bytes} {ty : InType} (hc : checkScriptType u.lockScript u.redeemScript = .ok (lock, redeem, ty)) {x : Unlocking}
    (hx : KindOf x redeem ty) (h : hashForSig V H seg P t k u = .ok th) : (∃ d, Hex.decode th.hash = .ok d) ∧ Shape x th := by
  unfold hashForSig at h
  simp only at h
  rw [check_agree hV hc, Res.bind_ok] at h
  obtain ⟨b, _, h⟩ := Res.bind_eq_ok.mp h
  have key : (∃ f, newTxHashBch f H (H.hash .doubleSha256 b) lock redeem ty u.sigType P = .ok th) ∨
      Btc.newTxHash H (H.hash .doubleSha256 b) lock redeem ty u.sigType P = .ok th := by
    rcases hV with rfl | rfl | rfl | rfl
    · exact Or.inl ⟨_, h⟩
    · exact Or.inl ⟨_, h⟩
    · exact Or.inr h
    · exact Or.inr h
  constructor
  · rcases key with ⟨f, h⟩ | h
    · exact ⟨_, by rw [newTxHashBch_hash h, Hex.decode_encode]⟩
    · exact ⟨_, by rw [newTxHash_hash h, Hex.decode_encode]⟩
  · have multi : ty = .multi → ∀ m keys, 1 ≤ m → m ≤ keys.length → keys.length ≤ 15 → (∀ k ∈ keys, k.length = 33) → redeem = multisigScript m keys →
        th.nRequired = UInt8.ofNat m ∧ ∃ st, th.multi = keys.map (fun k => ⟨Hex.encode k, st, ⟨none, none⟩⟩) := by
      intro hty m keys a1 a2 a3 a4 a5
      subst hty a5
      rcases key with ⟨f, h⟩ | h
      · obtain ⟨b1, b2⟩ := newBch_multi a1 a2 a3 a4 h
        exact ⟨b1, _, b2⟩
      · obtain ⟨b1, b2⟩ := newTxHash_multi a1 a2 a3 a4 h
        exact ⟨b1, _, b2⟩
    cases x with
    | one o der pub =>
      rcases key with ⟨f, h⟩ | h
      · obtain ⟨b1, a, b2⟩ := newBch_one hx h
        exact ⟨b1, a, _, b2⟩
      · obtain ⟨b1, a, b2⟩ := newTxHash_one hx h
        exact ⟨b1, a, _, b2⟩
    | multi ders r =>
      obtain ⟨h1, h2⟩ := hx
      intro m keys a1 a2 a3 a4 a5
      exact multi h1 m keys a1 a2 a3 a4 (h2.trans a5)
    | witnessMulti ders r =>
      obtain ⟨h1, h2⟩ := hx
      intro m keys a1 a2 a3 a4 a5
      exact multi h1 m keys a1 a2 a3 a4 (h2.trans a5)

end BtcVariants

/-- C123 for Bitcoin Cash, Bitcoin SV, CXC and HC, with any signature type: with the same exception as `C123_insert_partial`,
`InsertSignatureIntoEmptyTransaction` returns the standard serialisation of the signed transaction. -/
theorem C123_variants_partial (V : Variant) (hV : V = bch ∨ V = bsv ∨ V = cxc ∨ V = hc) (sty : UInt8) (H : Hashes) (t : RawTx)
    (hu : UnsignedV V.version t) (l : List Entry) (hl : l.length = t.ins.length) (segwitOn : Bool)
    (hf : ∀ e ∈ l, Fills sty segwitOn e.unlock e.hash e.expect)
    (h2 : ∀ e ∈ l, ∀ ders r, e.expect = .witnessMulti ders r → ders.length = 2 ∧ r.length < 253) :
    insertSignatures V H (Hex.encode t.ser) (l.map Entry.hash) (l.map Entry.unlock) segwitOn =
      .ok (Hex.encode (t.unlocked (H.hash .sha256) (l.map Entry.expect))) := by
  rw [insert_fillsV hV H t hu l hl segwitOn hf, (unlockedBytes_standard hl hf).mpr h2]

/-- C92 for all kinds of inputs: for every unsigned transaction of Bitcoin Cash, Bitcoin SV, CXC and HC, in which each input spends a P2PKH output,
a P2WPKH output nested in P2SH or native, a P2SH multi-signature output (without the segregated witness flag) or a P2SH-P2WSH
multi-signature output (with it), if the messages `hs` come from `CreateRawTransactionHashForSig` and the records hold valid signatures for them, at
least as many as required, then `InsertSignatureIntoEmptyTransaction` succeeds and `VerifyRawTransaction` accepts its result. Missing: what is
missing in `C63_all_inputs_partial`. -/
theorem C92_all_inputs_partial (V : Variant) (hV : V = bch ∨ V = bsv ∨ V = cxc ∨ V = hc) (sty : UInt8) (H : Hashes) (C : Curve) (P : AddressPrefix)
    (t : RawTx) (hu : UnsignedV V.version t) (l : List Entry) (segwitOn : Bool)
    (hs : List TxHash) (hc : createHashes V H (Hex.encode t.ser) (l.map Entry.unlock) segwitOn P = .ok hs)
    (hhash : l.map (fun e => e.hash.hash) = hs.map TxHash.hash)
    (hf : ∀ e ∈ l, Fills sty segwitOn e.unlock e.hash e.expect) (hr : ∀ e ∈ l, Readable e.expect) (hv : ∀ e ∈ l, ValidRecord C e.hash) :
    ∃ signed, insertSignatures V H (Hex.encode t.ser) (l.map Entry.hash) (l.map Entry.unlock) segwitOn = .ok signed ∧
      verifyRaw V H C signed (l.map Entry.unlock) segwitOn P = .ok true := by
  have hvl := HasScripts.version_lt hV
  obtain ⟨hl1, hl2, hget⟩ := createHashes_get hvl hu hc
  have hl : l.length = t.ins.length := by simpa using hl1
  have h32 : ∀ b, (H.hash .sha256 b).length = 32 := H.size .sha256
  refine ⟨_, insert_fillsV hV H t hu l hl segwitOn hf, ?_⟩
  have hh : hashesForSig V H segwitOn P (ofRaw t) (l.map Entry.unlock) = .ok hs := by
    unfold BtcVariants.createHashes at hc
    rw [Hex.decode_encode, Res.bind_ok, decode_unsignedV hvl hu, Res.bind_ok] at hc
    exact hc
  obtain ⟨hs', a1, a2⟩ := attachAll_fills (C := C) (sha := H.hash .sha256) t.ins l hs hl (by simpa using hl2) (by
    intro j i e th hi he hth
    obtain ⟨th2, e1, e2⟩ := hget j e.unlock (by simp [he])
    rw [hth] at e1
    simp only [Option.some.injEq] at e1
    subst e1
    have he' := List.mem_of_getElem? he
    obtain ⟨lock, redeem, ty, hck, hty⟩ := check_fills (hf e he')
    obtain ⟨⟨d, hd⟩, hsh⟩ := shapeV hV hck hty e2
    refine attach_shape i (hf e he') (hr e he') hsh hd ?_ (hv e he')
    have := congrArg (fun l => l[j]?) hhash
    simp only [List.getElem?_map, he, hth, Option.map_some, Option.some.injEq] at this
    exact this.symm)
  unfold BtcVariants.verifyRaw
  rw [Hex.decode_encode]
  simp only [decodeTxV_fills hvl h32 hu l hl hf hr]
  rw [if_neg (by simp [readTx, hl]), hashes_signedV hV hl, hh]
  simp only
  rw [show (readTx (H.hash .sha256) t l).vins = List.zipWith (readIn (H.hash .sha256)) t.ins (l.map Entry.expect) from rfl, a1, Res.bind_ok]
  exact verifyAll_true hs' a2

/-! ### The hypotheses can be met -/

namespace BtcVariants

/-- `sig11` in DER form with the signature type of Bitcoin Cash. -/
def der41 : Bytes := derSig (List.replicate 32 1) (List.replicate 32 1) ++ [0x41]

theorem der41_is : IsSig 0x41 sig11 der41 := by
  obtain ⟨h1, h2, h3, R, S, h4, h5, h6⟩ := der11_is
  have e := List.append_cancel_right h6
  exact ⟨h1, h2, h3, R, S, h4, h5, by rw [der41, e]⟩

/-- Version 1, two inputs. -/
def demoTwo : RawTx := { demoTxN 2 with version := 1 }

theorem demoTwo_unsigned : UnsignedV 1 demoTwo :=
  have h := demoTxN_unsigned 2 (by decide) (by decide)
  ⟨rfl, h.lockTime, h.insPos, h.insLt, h.outsPos, h.outsLt, h.ins, h.outs⟩

/-- A P2PKH output, and a script for two signatures by three keys. -/
def forkEntries (a b : Bytes) : List Entry :=
  [⟨forkUnlock (List.replicate 20 5), ⟨a, 0, some ⟨[], 0x41, ⟨some sig11, some key1⟩⟩, []⟩, .one (.keyHash (List.replicate 20 5)) der41 key1⟩,
   ⟨forkMulti 2 [key0, key1, key2], ⟨b, 2, none, List.zipWith (multiRow 0x41) [key0, key1, key2] [some sig11, none, some sig11]⟩,
    .multi [der41, der41] (multisigScript 2 [key0, key1, key2])⟩]

theorem fork_fills (a b : Bytes) : ∀ e ∈ forkEntries a b, Fills 0x41 false e.unlock e.hash e.expect := by
  intro e he
  simp only [forkEntries, List.mem_cons, List.not_mem_nil, or_false] at he
  rcases he with rfl | rfl
  · exact Fills.one (sig := sig11) ⟨rfl, Hex.decode_encode _, rfl, rfl, ⟨_, rfl⟩, der41_is, rfl⟩ (by intro h; cases h)
  · refine Fills.multi (sigs := [some sig11, none, some sig11]) ⟨⟨_, rfl, Hex.decode_encode _⟩, Hex.decode_encode _, by decide, by decide, by decide, demo_keys, rfl, rfl, rfl, by decide,
      by intro s hs; rw [demo_sigs s hs]; rfl, ?_⟩ rfl
    exact List.Forall₂.cons der41_is (List.Forall₂.cons der41_is List.Forall₂.nil)

end BtcVariants

-- Bitcoin Cash, inputs of two kinds
example : insertSignatures bch toyHashes (Hex.encode demoTwo.ser) ((forkEntries [] []).map Entry.hash) ((forkEntries [] []).map Entry.unlock) false =
    .ok (Hex.encode (demoTwo.unlocked (toyHashes.hash .sha256) ((forkEntries [] []).map Entry.expect))) :=
  C123_variants_partial bch (by simp) 0x41 _ _ demoTwo_unsigned _ rfl false (fork_fills _ _) (by
    intro e he ders r hx
    simp only [forkEntries, List.mem_cons, List.not_mem_nil, or_false] at he
    rcases he with rfl | rfl <;> cases hx)

example : ∃ a b signed, insertSignatures bch toyHashes (Hex.encode demoTwo.ser) ((forkEntries a b).map Entry.hash)
      ((forkEntries a b).map Entry.unlock) false = .ok signed ∧
    verifyRaw bch toyHashes anyCurve signed ((forkEntries a b).map Entry.unlock) false btcMainnet = .ok true := by
  have hc : (createHashes bch toyHashes (Hex.encode demoTwo.ser) ((forkEntries [] []).map Entry.unlock) false btcMainnet).isOk = true := by
    decide +kernel
  cases hc' : createHashes bch toyHashes (Hex.encode demoTwo.ser) ((forkEntries [] []).map Entry.unlock) false btcMainnet with
  | err => rw [hc'] at hc; simp [Res.isOk] at hc
  | panic => rw [hc'] at hc; simp [Res.isOk] at hc
  | ok hs =>
    have hl := (createHashes_get (V := bch) (by decide) demoTwo_unsigned hc').2.1
    match hs, hl with
    | [a, b], _ =>
      refine ⟨a.hash, b.hash, C92_all_inputs_partial bch (by simp) 0x41 toyHashes anyCurve btcMainnet _ demoTwo_unsigned (forkEntries a.hash b.hash)
        false _ hc' rfl (fork_fills _ _) ?_ ?_⟩
      · intro e he
        simp only [forkEntries, List.mem_cons, List.not_mem_nil, or_false] at he
        rcases he with rfl | rfl
        · trivial
        · show 0x6c < ((Unlocking.multi [der41, der41] (multisigScript 2 [key0, key1, key2])).script id).length
          decide +kernel
      · intro e he
        simp only [forkEntries, List.mem_cons, List.not_mem_nil, or_false] at he
        rcases he with rfl | rfl
        · refine ⟨?_, by simp, by simp⟩
          intro n sig pub hn hs
          simp only [Option.some.injEq] at hn
          subst hn
          simp only [SigPub.mk.injEq, Option.some.injEq] at hs
          rw [← hs.1]
          exact any_valid _ _
        · refine ⟨by simp, ?_, by simp [anyCurve]⟩
          intro row hrow sig pub he
          simp only [List.zipWith_cons_cons, List.zipWith_nil_left, multiRow, List.mem_cons, List.not_mem_nil, or_false] at hrow
          rcases hrow with rfl | rfl | rfl <;> simp only [SigPub.mk.injEq, Option.some.injEq, reduceCtorEq, and_false] at he
          all_goals
            rw [← he.1]
            exact any_valid _ _

-- HC, inputs of four kinds
example : insertSignatures hc toyHashes (Hex.encode (demoTxN 4).ser) ((fourEntries [] [] [] []).map Entry.hash)
    ((fourEntries [] [] [] []).map Entry.unlock) true =
    .ok (Hex.encode ((demoTxN 4).unlocked (toyHashes.hash .sha256) ((fourEntries [] [] [] []).map Entry.expect))) :=
  have h := demoTxN_unsigned 4 (by decide) (by decide)
  C123_variants_partial hc (by simp) 1 _ _ ⟨rfl, h.lockTime, h.insPos, h.insLt, h.outsPos, h.outsLt, h.ins, h.outs⟩ _ rfl true (four_fills _ _ _ _) (by
    intro e he ders r hx
    simp only [fourEntries, List.mem_cons, List.not_mem_nil, or_false] at he
    rcases he with rfl | rfl | rfl | rfl
    · cases hx
    · cases hx
    · cases hx
    · injection hx with h1 h2
      subst h1 h2
      exact ⟨rfl, by decide⟩)

end Verif
