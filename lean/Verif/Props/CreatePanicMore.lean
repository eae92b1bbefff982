import Verif.Props.CreatePanicOther
import Verif.Model.Filenet

/-! C140, the rest: payments to addresses under the bech32 prefix in the copies without `continue`, Omni messages, assets of CXC, Filenet. -/

namespace Verif
open Verif.Spec Verif.Spec.Crash Verif.Spec.Eip55 Verif.Spec.Bech32Lang Verif.Spec.Bch Verif.Addr

/-- An address that crashes a copy of the Bitcoin package without `continue`: too short a bech32 text under the network's prefix, or too short a Base58Check text, which under that prefix must be readable as bech32 as well. -/
def ShortFall (H : Hashes) (P : Btc.AddressPrefix) (t : Bytes) : Prop :=
  if P.bech32 <+: t then ShortBech32 t ∨ (LongBech32 t ∧ ShortBase58 Btc.alphabet (H.hash .doubleSha256) 20 t)
  else ShortBase58 Btc.alphabet (H.hash .doubleSha256) 20 t

namespace CreatePanic
open Verif.BtcVariants
open Verif.Btc (Vin Vout TxOut AddressPrefix)

theorem untake_ne_err : ∀ (l : List Nat) (r : Bytes), Bech32.untake l r ≠ .err
  | [], _ => by simp [Bech32.untake]
  | [e], r => by unfold Bech32.untake Bech32.orLast; split <;> simp
  | e :: f :: es, r => by
    unfold Bech32.untake
    have ih := untake_ne_err (f :: es)
    unfold Bech32.orLast
    split
    · rename_i h
      split at h
      · cases h
      · cases h; exact ih _
    · rename_i h; split at h <;> cases h
    · simp

theorem unextend_ne_err (l : List Nat) : Bech32.unextendPayload l ≠ .err := untake_ne_err _ _

theorem bech32_ok (t : Bytes) : (∃ p, Bech32.decode t = .ok p) ↔ LongBech32 t := by
  unfold LongBech32
  constructor
  · rintro ⟨p, h⟩
    obtain ⟨pre, vs, h1, h2⟩ := Bech32.decode_ok h
    obtain ⟨d, k1, k2, k3⟩ := (Bech32.parse_iff 0x31 (Or.inl rfl) t pre vs).mp h1
    have k4 := (C64_bech32_is_bip173 pre vs (Bech32.symbols_lt k3)).mp h2
    refine ⟨pre, d, vs, k1, k2, k3, k4, ?_⟩
    by_contra hlen
    have := (bech32_panic t).mpr (.inr ⟨pre, d, vs, k1, k2, k3, k4, by omega⟩)
    rw [h] at this; cases this
  · rintro ⟨pre, d, vs, k1, k2, k3, k4, k5⟩
    have hp := (Bech32.parse_iff 0x31 (Or.inl rfl) t pre vs).mpr ⟨d, k1, k2, k3⟩
    cases hd : Bech32.decode t with
    | ok p => exact ⟨p, rfl⟩
    | panic =>
      exfalso
      rcases (bech32_panic t).mp hd with rfl | ⟨pre', d', vs', j1, j2, j3, _, j5⟩
      · rcases k1 with ⟨_, _, h⟩ | ⟨⟨_, _, _, h⟩, _⟩ <;> simp at h
      · rw [(Bech32.parse_iff 0x31 (Or.inl rfl) t pre' vs').mpr ⟨d', j1, j2, j3⟩] at hp
        cases hp
        omega
    | err =>
      exfalso
      unfold Bech32.decode at hd
      rw [hp] at hd
      simp only [Res.bind_ok, (C64_bech32_is_bip173 pre vs (Bech32.symbols_lt k3)).mpr k4, Bool.not_true, Bool.false_eq_true, if_false] at hd
      rw [if_neg (by omega)] at hd
      cases hu : Bech32.unextendPayload (vs.take (vs.length - 6)) with
      | err => exact unextend_ne_err _ hu
      | panic => rw [hu] at hd; cases hd
      | ok ret =>
        rw [hu, Res.bind_ok] at hd
        split_ifs at hd
        unfold slice at hd
        split_ifs at hd
        · simp only [Res.bind_ok] at hd
          split at hd <;> cases hd
        · cases hd

/-- The texts on which a copy without `continue` crashes: the address is read as bech32, if it has the prefix, and then as Base58Check in any case. -/
theorem fall_iff (H : Hashes) (P : AddressPrefix) (am t : Bytes) (s : Res Bytes) (hs : s = .panic ↔ ShortBase58 Btc.alphabet (H.hash .doubleSha256) 20 t) :
    (bech32Outs P am [] t >>= fun first => s >>= fun x => Res.ok (first ++ [(⟨am, x⟩ : TxOut)])) = .panic ↔ ShortFall H P t := by
  unfold ShortFall
  by_cases hp : P.bech32 <+: t
  · rw [if_pos hp, ← bech32_panic, ← bech32_ok, ← hs]
    unfold bech32Outs
    rw [if_pos (List.isPrefixOf_iff_prefix.mpr hp)]
    cases Bech32.decode t with
    | panic => simp
    | err => simp
    | ok q =>
      simp only [Res.bind_ok]
      rw [DecPanic.bind_panic _ _ (by intro a; simp)]
      simp
  · rw [if_neg hp]
    exact fall_panic H P am t s hs hp

theorem outFall_panic (H : Hashes) (P : AddressPrefix) (v : Vout) : outFall H P v = .panic ↔ ShortFall H P v.address :=
  fall_iff H P _ _ _ (base58Script_panic _ _ _ _ _)

/-- Payments, then one output with a message. -/
theorem createWith_last (ver : Nat) (vins : List Vin) (lt : UInt32) (r : Bool) (f : Vout → Res (List TxOut)) (p : Res Bytes) (am : Bytes) (vouts : List Vout) :
    createWith ver vins (if vouts = [] then .err else appendAll f vouts >>= fun os => p >>= fun s => .ok (os ++ [(⟨am, s⟩ : TxOut)])) lt r = .panic ↔
      GoodIns vins ∧ (FirstBad (fun w => ∃ y, f w = .ok y) (fun w => f w = .panic) vouts ∨ (vouts ≠ [] ∧ (∀ w ∈ vouts, ∃ y, f w = .ok y) ∧ p = .panic)) := by
  unfold GoodIns
  rw [← btcIns_iff]
  have hl := loop_panic (L := appendAll f) (f := f) (g := fun a b => a ++ b) (c := []) rfl (fun _ _ => rfl) vouts
  have hk := loop_ok (L := appendAll f) (f := f) (g := fun a b => a ++ b) (c := []) rfl (fun _ _ => rfl) vouts
  rw [← hl, ← hk]
  unfold createWith
  cases hi : Btc.newTxIns vins with
  | panic => exact absurd hi (btcIns_ne_panic _)
  | err => simp
  | ok i =>
    have henc : ∀ os, (Btc.encodeTx false ⟨leBytes 4 ver, i.map (Btc.setSequence lt r), os, leBytes 4 lt.toNat, false⟩ >>= fun b => Res.ok (Hex.encode b)) ≠ .panic := by
      intro os
      rw [Ne, DecPanic.bind_panic _ _ (by intro a; simp)]
      exact encodeTx_ne_panic _ rfl
    rw [Res.bind_ok, DecPanic.bind_panic _ _ henc]
    by_cases hv : vouts = []
    · subst hv
      simp [appendAll]
    rw [if_neg hv]
    cases ha : appendAll f vouts with
    | panic => simp
    | err => simp
    | ok os =>
      rw [Res.bind_ok, DecPanic.bind_panic _ _ (by intro a; simp)]
      simp [hv]

theorem payload_panic (H : Hashes) (o : Omni.OmniStruct) : Omni.getPayload H o = .panic ↔
    (o.txType = 185 ∨ o.txType = 186) ∧ ShortBase58 Btc.alphabet (H.hash .doubleSha256) 20 o.address := by
  rw [← btc_panic]
  unfold Omni.getPayload
  rw [DecPanic.bind_panic _ _ (by intro a; split <;> simp)]
  have hw : ∀ ty, Omni.withAddress H ty o = .panic ↔ Btc.decodeCheck H o.address = .panic := by
    intro ty
    unfold Omni.withAddress
    cases Btc.decodeCheck H o.address <;> simp
  by_cases h1 : o.txType = 185
  · have : Omni.body H o = (Omni.withAddress H 185 o >>= fun b => .ok (some b)) := by
      unfold Omni.body
      rw [h1]; rfl
    rw [this, DecPanic.bind_panic _ _ (by intro a; simp), hw]
    simp [h1]
  by_cases h2 : o.txType = 186
  · have : Omni.body H o = (Omni.withAddress H 186 o >>= fun b => .ok (some b)) := by
      unfold Omni.body
      rw [h2]; rfl
    rw [this, DecPanic.bind_panic _ _ (by intro a; simp), hw]
    simp [h2]
  · refine iff_of_false ?_ (by rintro ⟨h | h, _⟩ <;> contradiction)
    unfold Omni.body
    rw [if_neg h1, if_neg h2]
    repeat' split
    all_goals simp

end CreatePanic

open CreatePanic

/-- C140, CXC, HC and Horizen, any addresses: `CreateEmptyRawTransaction` crashes if and only if the inputs (and the block hash of Horizen) are in order and, behind outputs that could be paid on their own, there is an
address that is too short (`ShortFall`). -/
theorem C140_fall (H : Hashes) (vins : List Btc.Vin) (vouts : List Btc.Vout) (lt : UInt32) (r : Bool) (P : Btc.AddressPrefix) :
    (BtcVariants.createCxc H vins vouts lt r P = .panic ↔ GoodIns vins ∧
      FirstBad (fun w => ∃ text, BtcVariants.createCxc H vins [w] lt r P = .ok text) (fun w => ShortFall H P w.address) vouts) ∧
    (BtcVariants.createHc H vins vouts lt r P = .panic ↔ GoodIns vins ∧
      FirstBad (fun w => ∃ text, BtcVariants.createHc H vins [w] lt r P = .ok text) (fun w => ShortFall H P w.address) vouts) ∧
    (∀ block height, (BtcVariants.createZen H vins vouts lt r P block height = .panic ↔ GoodIns vins ∧ (∃ b, HexText block b) ∧
      FirstBad (fun w => ∃ text, BtcVariants.createZen H vins [w] lt r P block height = .ok text) (fun w => ShortFall H P w.address) vouts)) := by
  have hf : ∀ v os, BtcVariants.outFall H P v = .ok os → os ≠ [] ∧ ∀ o ∈ os, o.amount.length = 8 ∧ o.lockScript ≠ [] :=
    fun v os h => fall_shape (by simp) (fun x hx => base58Script_ne hx) h
  have k1 := createWith_panic 1 vins lt r (BtcVariants.outFall H P) (.ok ()) (by simp) hf (BtcVariants.outs (BtcVariants.outFall H P)) (fun vs => rfl) vouts
  have k2 := createWith_panic 2 vins lt r (BtcVariants.outFall H P) (.ok ()) (by simp) hf (BtcVariants.outs (BtcVariants.outFall H P)) (fun vs => rfl) vouts
  simp only [outFall_panic, true_and] at k1 k2
  refine ⟨k1, k2, fun block height => ?_⟩
  cases hr : Btc.reverseHexToBytes block with
  | panic => exact absurd hr (reverse_ne_panic _)
  | err =>
    have hno : ¬ ∃ b, HexText block b := by
      rintro ⟨b, hb⟩
      rw [(reverse_iff block b.reverse).mpr (by simpa using hb)] at hr
      cases hr
    have key := createWith_panic 1 vins lt r (BtcVariants.outZen H P [] height) .err (by simp)
      (fun v os h => fall_shape (by simp) (fun x hx => base58Script_ne hx) h)
      (BtcVariants.outsZen H P block height) (fun vs => by unfold BtcVariants.outsZen; rw [hr]; rfl) vouts
    refine iff_of_false (fun h => ?_) (fun h => hno h.2.1)
    have := (key.mp h).2.1
    cases this
  | ok hash =>
    have hyes : ∃ b, HexText block b := ⟨_, (reverse_iff block hash).mp hr⟩
    have key := createWith_panic 1 vins lt r (BtcVariants.outZen H P hash height) (.ok ()) (by simp)
      (fun v os h => fall_shape (by simp) (fun x hx => base58Script_ne hx) h)
      (BtcVariants.outsZen H P block height) (fun vs => by unfold BtcVariants.outsZen; rw [hr]; rfl) vouts
    have hb : ∀ v, (BtcVariants.outZen H P hash height v = .panic ↔ ShortFall H P v.address) :=
      fun v => fall_iff H P _ _ _ (base58Script_panic _ _ _ _ _)
    simp only [hb, true_and] at key
    simp only [hyes, true_and]
    exact key

/-- C140, the Omni package and the Omni messages on Bitcoin Cash and Bitcoin SV: creation crashes if and only if the inputs are in order and either, behind outputs that could be paid on their own (next to the message `o'`, a
transfer), there is an address that is too short, or all outputs can be paid and the address to be frozen or unfrozen is too short. -/
theorem C140_omni (H : Hashes) (vins : List Btc.Vin) (vouts : List Btc.Vout) (o o' : Omni.OmniStruct) (ho : o'.txType = 0) (lt : UInt32) (r : Bool) (P : Btc.AddressPrefix) :
    (Omni.createEmptyRawTransaction H vins vouts o lt r P = .panic ↔ GoodIns vins ∧
      (FirstBad (fun w => ∃ text, Omni.createEmptyRawTransaction H vins [w] o' lt r P = .ok text) (fun w => ShortFall H P w.address) vouts ∨
       (vouts ≠ [] ∧ (∀ w ∈ vouts, ∃ text, Omni.createEmptyRawTransaction H vins [w] o' lt r P = .ok text) ∧
        (o.txType = 185 ∨ o.txType = 186) ∧ ShortBase58 Btc.alphabet (H.hash .doubleSha256) 20 o.address))) ∧
    (BtcVariants.createBchOmni H vins vouts o lt r P = .panic ↔ GoodIns vins ∧
      (FirstBad (fun w => ∃ text, BtcVariants.createBchOmni H vins [w] o' lt r P = .ok text) (fun w => ShortBase58 Btc.alphabet (H.hash .doubleSha256) 20 w.address) vouts ∨
       (vouts ≠ [] ∧ (∀ w ∈ vouts, ∃ text, BtcVariants.createBchOmni H vins [w] o' lt r P = .ok text) ∧
        (o.txType = 185 ∨ o.txType = 186) ∧ ShortBase58 Btc.alphabet (H.hash .doubleSha256) 20 o.address))) := by
  obtain ⟨s, hs, hs0⟩ : ∃ s, Omni.getPayload H o' = .ok s ∧ s ≠ [] := by
    refine ⟨_, by unfold Omni.getPayload Omni.body; rw [if_pos ho]; rfl, by simp⟩
  have good : ∀ (ver : Nat) (f : Btc.Vout → Res (List Btc.TxOut)), (∀ v os, f v = .ok os → ∀ o ∈ os, o.amount.length = 8 ∧ o.lockScript ≠ []) → GoodIns vins → ∀ w,
      ((∃ text, BtcVariants.createWith ver vins (BtcVariants.appendAll f [w] >>= fun os => Omni.getPayload H o' >>= fun s => .ok (os ++ [(⟨leBytes 8 0, s⟩ : Btc.TxOut)])) lt r = .ok text) ↔ ∃ y, f w = .ok y) := by
    intro ver f hf hg w
    obtain ⟨i, hi⟩ := (btcIns_iff vins).mpr hg
    unfold BtcVariants.createWith BtcVariants.appendAll BtcVariants.appendAll
    rw [hi, hs]
    cases hw : f w with
    | panic => simp
    | err => simp
    | ok os =>
      obtain ⟨b, hb⟩ := encodeTx_ok hi lt r ver (os ++ [] ++ [⟨leBytes 8 0, s⟩]) ⟨by simp, by
        intro x hx
        rcases List.mem_append.mp hx with hx | hx
        · rw [List.append_nil] at hx; exact hf w os hw x hx
        · simp only [List.mem_singleton] at hx; subst hx; exact ⟨by simp, hs0⟩⟩
      simp only [Res.bind_ok, hb]
      simp
  have step : ∀ {X : Prop} {g g' b b' : Btc.Vout → Prop} {p : Prop}, (X ↔ GoodIns vins ∧ (FirstBad g b vouts ∨ (vouts ≠ [] ∧ (∀ w ∈ vouts, g w) ∧ p))) →
      (GoodIns vins → ∀ w, (g' w ↔ g w)) → (∀ w, (b w ↔ b' w)) → (X ↔ GoodIns vins ∧ (FirstBad g' b' vouts ∨ (vouts ≠ [] ∧ (∀ w ∈ vouts, g' w) ∧ p))) := by
    intro X g g' b b' p hX h1 h2
    rw [hX]
    have eb : b = b' := funext fun w => propext (h2 w)
    subst eb
    constructor
    · rintro ⟨hg, h⟩
      have eg : g' = g := funext fun w => propext (h1 hg w)
      rw [eg]; exact ⟨hg, h⟩
    · rintro ⟨hg, h⟩
      have eg : g' = g := funext fun w => propext (h1 hg w)
      rw [eg] at h; exact ⟨hg, h⟩
  constructor
  · have e : ∀ vs o, Omni.createEmptyRawTransaction H vins vs o lt r P = BtcVariants.createWith 2 vins (if vs = [] then .err else BtcVariants.appendAll (Omni.newTxOut H P) vs >>= fun os =>
        Omni.getPayload H o >>= fun s => .ok (os ++ [(⟨leBytes 8 0, s⟩ : Btc.TxOut)])) lt r := by
      intro vs o
      have : ∀ vs, Omni.newTxOutLoop H P vs = BtcVariants.appendAll (Omni.newTxOut H P) vs := by
        intro vs
        induction vs with
        | nil => rfl
        | cons v vs ih => unfold Omni.newTxOutLoop BtcVariants.appendAll; rw [ih]
      rw [← this]; rfl
    have ef : ∀ v, Omni.newTxOut H P v = BtcVariants.outFall H P v := by
      intro v
      unfold Omni.newTxOut BtcVariants.outFall BtcVariants.bech32Outs BtcVariants.base58Script
      by_cases hp : P.bech32.isPrefixOf v.address = true
      · simp only [hp, if_true]
        cases Bech32.decode v.address with
        | panic => rfl
        | err => rfl
        | ok q =>
          cases Btc.decodeCheck H v.address with
          | ok x =>
            obtain ⟨pre, hash⟩ := x
            simp only [Bool.false_eq_true, false_and, or_false, Res.bind_ok, List.append_nil]
            split_ifs <;> rfl
          | err => rfl
          | panic => rfl
      · simp only [hp]
        cases Btc.decodeCheck H v.address with
        | ok x =>
          obtain ⟨pre, hash⟩ := x
          simp only [Bool.false_eq_true, if_false, false_and, or_false, Res.bind_ok, List.append_nil]
          split_ifs <;> rfl
        | err => rfl
        | panic => rfl
    have key := createWith_last 2 vins lt r (Omni.newTxOut H P) (Omni.getPayload H o) (leBytes 8 0) vouts
    rw [← e, payload_panic] at key
    refine step key (fun hg w => ?_) (fun w => by rw [ef]; exact outFall_panic H P w)
    rw [e, if_neg (by simp)]
    refine good 2 _ ?_ hg w
    intro v os h
    rw [ef] at h
    exact (fall_shape (by simp) (fun x hx => base58Script_ne hx) h).2
  · have e : ∀ vs o, BtcVariants.createBchOmni H vins vs o lt r P = BtcVariants.createWith 1 vins (if vs = [] then .err else BtcVariants.appendAll (BtcVariants.outBch H P false) vs >>= fun os =>
        Omni.getPayload H o >>= fun s => .ok (os ++ [(⟨leBytes 8 0, s⟩ : Btc.TxOut)])) lt r := by
      intro vs o
      unfold BtcVariants.createBchOmni BtcVariants.outsBchOmni BtcVariants.outs
      split_ifs <;> rfl
    have key := createWith_last 1 vins lt r (BtcVariants.outBch H P false) (Omni.getPayload H o) (leBytes 8 0) vouts
    rw [← e, payload_panic] at key
    refine step key (fun hg w => ?_) (fun w => outBch_panic H P false w)
    rw [e, if_neg (by simp)]
    refine good 1 _ ?_ hg w
    intro v os h
    obtain ⟨s, h1, h⟩ := Res.bind_eq_ok.mp h
    cases h
    simpa using base58Script_ne h1

/-- C140, Filenet: creation never crashes. -/
theorem C140_filenet (H : Hashes) (S : Filenet.Sorter) (time : UInt64) (in_ : Bytes) (outs : List Filenet.Vout) : Filenet.createEmpty H S time in_ outs ≠ .panic := by
  have hd : ∀ t, Filenet.decodeAddress t ≠ .panic := by
    intro t
    refine bind_ne (decode58_ne_panic t) fun x => bind_ne (Hex.decode_ne_panic x) fun y => ?_
    split_ifs <;> simp
  have hp : ∀ (l : List Filenet.Vout) (n : UInt64), Filenet.payments l n ≠ .panic := by
    intro l
    induction l with
    | nil => intro n; simp [Filenet.payments]
    | cons v l ih =>
      intro n
      unfold Filenet.payments
      split_ifs
      · simp
      · simp
      · exact bind_ne (hd _) fun _ => bind_ne (ih _) (by intro a; simp)
  unfold Filenet.createEmpty Filenet.newTx
  refine bind_ne ?_ (by intro a; simp)
  split_ifs
  · simp
  · exact bind_ne (hd _) (by intro a; simp)
  · exact bind_ne (hd _) fun _ => bind_ne (hp _ _) (by intro a; simp)

/-- The receiver of an asset that crashes the creation: as `ShortFall`, where a text that passes as bech32 gets to the second reading only if the reference of the asset is in hexadecimal digits. -/
def ShortAsset (H : Hashes) (P : Btc.AddressPrefix) (t : BtcVariants.AssetTransfer) : Prop :=
  if P.bech32 <+: t.address then ShortBech32 t.address ∨ (LongBech32 t.address ∧ (∃ b, HexText t.firstSellTxID b) ∧ ShortBase58 Btc.alphabet (H.hash .doubleSha256) 20 t.address)
  else ShortBase58 Btc.alphabet (H.hash .doubleSha256) 20 t.address

namespace CreatePanic
open Verif.BtcVariants
open Verif.Btc (Vin Vout TxOut AddressPrefix)

theorem assetOut_cases (t : AssetTransfer) : ((∃ b, HexText t.firstSellTxID b) ∧ ∃ tail, ∀ s, assetOut t s = .ok ⟨leBytes 8 0, s ++ tail⟩) ∨
    ((¬ ∃ b, HexText t.firstSellTxID b) ∧ ∀ s, assetOut t s = .err) := by
  unfold assetOut assetPayload
  cases hr : Btc.reverseHexToBytes t.firstSellTxID with
  | panic => exact absurd hr (reverse_ne_panic _)
  | err =>
    refine .inr ⟨?_, fun s => rfl⟩
    rintro ⟨b, hb⟩
    rw [(reverse_iff _ b.reverse).mpr (by simpa using hb)] at hr
    cases hr
  | ok x => exact .inl ⟨⟨_, (reverse_iff _ x).mp hr⟩, _, fun s => rfl⟩

theorem outAsset_spec (H : Hashes) (P : AddressPrefix) (t : AssetTransfer) (am : UInt64) :
    (outAsset H P t = .panic ↔ ShortAsset H P t) ∧
    ((∃ y, outAsset H P t = .ok y) ↔ (∃ y, outFall H P ⟨t.address, am⟩ = .ok y) ∧ ∃ b, HexText t.firstSellTxID b) := by
  have hb := base58Script_panic H P false [] t.address
  unfold ShortAsset outAsset outFall bech32Outs
  by_cases hp : P.bech32 <+: t.address
  · rw [if_pos (List.isPrefixOf_iff_prefix.mpr hp), if_pos hp, ← bech32_panic, ← bech32_ok, ← hb, if_pos (List.isPrefixOf_iff_prefix.mpr hp)]
    cases Bech32.decode t.address with
    | panic => simp
    | err => simp
    | ok q =>
      rcases assetOut_cases t with ⟨h1, tail, h2⟩ | ⟨h1, h2⟩
      · simp only [Res.bind_ok, appendAll, h2, h1]
        cases base58Script H P false [] t.address <;> simp
      · simp only [Res.bind_ok, appendAll, h2, h1]
        cases base58Script H P false [] t.address <;> simp
  · have hp' : ¬ P.bech32.isPrefixOf t.address = true := fun h => hp (List.isPrefixOf_iff_prefix.mp h)
    rw [if_neg hp', if_neg hp, ← hb, if_neg hp']
    rcases assetOut_cases t with ⟨h1, tail, h2⟩ | ⟨h1, h2⟩
    · simp only [Res.bind_ok, appendAll, h2, h1]
      cases base58Script H P false [] t.address <;> simp
    · simp only [Res.bind_ok, appendAll, h2, h1]
      cases base58Script H P false [] t.address <;> simp

/-- Paying one receiver succeeds exactly if its output can be made. -/
theorem create_single {ver : Nat} {vins : List Vin} {lt : UInt32} {r : Bool} {f : Vout → Res (List TxOut)}
    (hf : ∀ v os, f v = .ok os → os ≠ [] ∧ ∀ o ∈ os, o.amount.length = 8 ∧ o.lockScript ≠ []) (hg : GoodIns vins) (w : Vout) :
    (∃ text, createWith ver vins (outs f [w]) lt r = .ok text) ↔ ∃ y, f w = .ok y := by
  obtain ⟨i, hi⟩ := (btcIns_iff vins).mpr hg
  unfold createWith outs appendAll appendAll
  rw [hi, if_neg (by simp)]
  cases hw : f w with
  | panic => simp
  | err => simp
  | ok os =>
    obtain ⟨b, hb⟩ := encodeTx_ok hi lt r ver (os ++ []) (by rw [List.append_nil]; exact hf w os hw)
    simp only [Res.bind_ok, hb]
    simp

end CreatePanic

/-- C140, assets of CXC: `CreateEmptyAssetRawTransaction` crashes if and only if the inputs are in order and either, behind transfers that are in order (the receiver could be paid, the reference is hexadecimal), there is a
receiver that is too short, or all transfers are in order and the change address is too short. -/
theorem C140_cxc_asset (H : Hashes) (vins : List Btc.Vin) (tos : List BtcVariants.AssetTransfer) (change : Btc.Vout) (lt : UInt32) (r : Bool) (P : Btc.AddressPrefix) :
    BtcVariants.createAsset H vins tos change lt r P = .panic ↔ GoodIns vins ∧
      (FirstBad (fun t => (∃ text, BtcVariants.createCxc H vins [⟨t.address, t.amount⟩] lt r P = .ok text) ∧ ∃ b, HexText t.firstSellTxID b) (ShortAsset H P) tos ∨
       ((∀ t ∈ tos, (∃ text, BtcVariants.createCxc H vins [⟨t.address, t.amount⟩] lt r P = .ok text) ∧ ∃ b, HexText t.firstSellTxID b) ∧ ShortFall H P change.address)) := by
  by_cases hg : GoodIns vins
  swap
  · have : Btc.newTxIns vins = .err := by
      cases h : Btc.newTxIns vins with
      | panic => exact absurd h (btcIns_ne_panic _)
      | err => rfl
      | ok i => exact absurd ((btcIns_iff vins).mp ⟨i, h⟩) hg
    unfold BtcVariants.createAsset BtcVariants.createWith
    rw [this]
    simp [hg]
  have hsh : ∀ v os, BtcVariants.outFall H P v = .ok os → os ≠ [] ∧ ∀ o ∈ os, o.amount.length = 8 ∧ o.lockScript ≠ [] :=
    fun v os h => fall_shape (by simp) (fun x hx => base58Script_ne hx) h
  have e1 : (fun t : BtcVariants.AssetTransfer => (∃ text, BtcVariants.createCxc H vins [⟨t.address, t.amount⟩] lt r P = .ok text) ∧ ∃ b, HexText t.firstSellTxID b) =
      fun t => ∃ y, BtcVariants.outAsset H P t = .ok y := by
    funext t
    rw [(outAsset_spec H P t t.amount).2, ← create_single (ver := 1) (lt := lt) (r := r) hsh hg ⟨t.address, t.amount⟩]
    rfl
  have e2 : ShortAsset H P = fun t => BtcVariants.outAsset H P t = .panic := by
    funext t
    rw [(outAsset_spec H P t 0).1]
  have e3 : ∀ t ∈ tos, ((∃ text, BtcVariants.createCxc H vins [⟨t.address, t.amount⟩] lt r P = .ok text) ∧ ∃ b, HexText t.firstSellTxID b) =
      ∃ y, BtcVariants.outAsset H P t = .ok y := fun t _ => congrFun e1 t
  have hl := loop_panic (L := BtcVariants.appendAll (BtcVariants.outAsset H P)) (f := BtcVariants.outAsset H P) (g := fun a b => a ++ b) (c := []) rfl (fun _ _ => rfl) tos
  have hk := loop_ok (L := BtcVariants.appendAll (BtcVariants.outAsset H P)) (f := BtcVariants.outAsset H P) (g := fun a b => a ++ b) (c := []) rfl (fun _ _ => rfl) tos
  rw [e1, e2, ← hl, forall₂_congr (fun t ht => by rw [e3 t ht]), ← hk, ← outFall_panic]
  simp only [hg, true_and]
  obtain ⟨i, hi⟩ := (btcIns_iff vins).mpr hg
  unfold BtcVariants.createAsset BtcVariants.createWith
  have henc : ∀ os, (Btc.encodeTx false ⟨leBytes 4 1, i.map (Btc.setSequence lt r), os, leBytes 4 lt.toNat, false⟩ >>= fun b => Res.ok (Hex.encode b)) ≠ .panic := by
    intro os
    rw [Ne, DecPanic.bind_panic _ _ (by intro a; simp)]
    exact encodeTx_ne_panic _ rfl
  rw [hi, Res.bind_ok, DecPanic.bind_panic _ _ henc]
  unfold BtcVariants.outsAsset
  cases ha : BtcVariants.appendAll (BtcVariants.outAsset H P) tos with
  | panic => simp
  | err => simp
  | ok os =>
    rw [Res.bind_ok, DecPanic.bind_panic _ _ (by intro a; simp)]
    unfold BtcVariants.outs BtcVariants.appendAll BtcVariants.appendAll
    rw [if_neg (by simp)]
    cases BtcVariants.outFall H P change <;> simp

-- a payable output, and a request to freeze the tokens of the empty address
set_option maxRecDepth 4000 in
example : (Omni.createEmptyRawTransaction toyHashes [⟨Hex.encode (List.replicate 32 7), 1⟩] [⟨asc "1TYPjCiGbKiwP6r12cdkmVjySbQs46iav", 5⟩] ⟨0, 31, 7, 1, [], []⟩ 0 false Btc.btcMainnet).isOk = true ∧
    Omni.createEmptyRawTransaction toyHashes [⟨Hex.encode (List.replicate 32 7), 1⟩] [⟨asc "1TYPjCiGbKiwP6r12cdkmVjySbQs46iav", 5⟩] ⟨185, 31, 7, 1, [], []⟩ 0 false Btc.btcMainnet = .panic := by decide +kernel
-- a transfer of an asset that is in order, and an empty change address
set_option maxRecDepth 4000 in
example : BtcVariants.createAsset toyHashes [⟨Hex.encode (List.replicate 32 7), 1⟩] [⟨Hex.encode (List.replicate 32 3), asc "1TYPjCiGbKiwP6r12cdkmVjySbQs46iav", 7⟩] ⟨[], 5⟩ 0 false Btc.btcMainnet = .panic := by decide +kernel
-- under the prefix of the network: "bc1" and a checksum without data
example (H : Hashes) : ShortFall H Btc.btcMainnet (asc "bc1gmk9yu") := by
  unfold ShortFall
  rw [if_pos (List.isPrefixOf_iff_prefix.mp (by decide)), ← bech32_panic]
  exact .inl (by decide +kernel)
-- an address that is readable as bech32
example : LongBech32 (asc "bc1qw508d6qejxtdg4y5r3zarvary0c5xw7kv8f3t4") := by
  have h : (Bech32.decode (asc "bc1qw508d6qejxtdg4y5r3zarvary0c5xw7kv8f3t4")).isOk = true := by decide +kernel
  rw [← bech32_ok]
  cases hd : Bech32.decode (asc "bc1qw508d6qejxtdg4y5r3zarvary0c5xw7kv8f3t4") with
  | ok p => exact ⟨p, rfl⟩
  | err => rw [hd] at h; simp at h
  | panic => rw [hd] at h; simp at h

end Verif
