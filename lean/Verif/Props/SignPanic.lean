import Verif.Props.CreatePanic
import Verif.Props.DecodeCut
import Verif.Props.CheckMemory
import Verif.Lemmas.BtcSig
import Verif.Props.BtcHc

/-! C141: computing the hashes to sign, inserting signatures and verifying, and when these calls panic. -/

namespace Verif
open Verif.Btc Verif.BtcVariants
open Verif.Spec Verif.Spec.Cut Verif.Spec.Eip55

namespace SignPanic
open CreatePanic

/-- What a recognised pair of scripts looks like. -/
structure Checked (lock redeem : Bytes) (ty : InType) : Prop where
  kind : ty ≠ .empty
  len : 2 ≤ lock.length
  p2pkh : ty = .p2pkh → 25 ≤ lock.length
  nested : ty = .p2wpkh → 22 ≤ lock.length ∧ 2 ≤ redeem.length
  multi : ty = .multi → 37 ≤ redeem.length

theorem check_btc {l r lock redeem : Bytes} {ty : InType} (h : Btc.checkScriptType l r = .ok (lock, redeem, ty)) : Checked lock redeem ty := by
  unfold Btc.checkScriptType at h
  cases hl : Hex.decode l with
  | err => rw [hl] at h; cases h
  | panic => rw [hl] at h; cases h
  | ok s =>
    rw [hl] at h
    dsimp only at h
    split_ifs at h with c1 c2 c3 c4
    · cases h; exact ⟨by decide, by omega, by intro; omega, by simp, by simp⟩
    · cases hr : Hex.decode r with
      | err => rw [hr] at h; cases h
      | panic => rw [hr] at h; cases h
      | ok x =>
        rw [hr] at h
        dsimp only at h
        split_ifs at h with d1 d2
        · cases h; exact ⟨by decide, by omega, by simp, by intro; omega, by simp⟩
        · cases h; exact ⟨by decide, by omega, by simp, by simp, by intro; exact d2.1⟩
    · cases h; exact ⟨by decide, by omega, by simp, by simp, by simp⟩

theorem check_bch {l r lock redeem : Bytes} {ty : InType} (h : checkBch l r = .ok (lock, redeem, ty)) : Checked lock redeem ty := by
  unfold checkBch at h
  cases hl : Hex.decode l with
  | err => rw [hl] at h; cases h
  | panic => rw [hl] at h; cases h
  | ok s =>
    rw [hl] at h
    dsimp only at h
    split_ifs at h with c1 c2 c3 c4
    · cases h; exact ⟨by decide, by omega, by intro; omega, by simp, by simp⟩
    · cases hr : Hex.decode r with
      | err => rw [hr] at h; cases h
      | panic => rw [hr] at h; cases h
      | ok x =>
        rw [hr] at h
        dsimp only at h
        split_ifs at h with d1 d2
        · cases h; exact ⟨by decide, by omega, by simp, by intro; omega, by simp⟩
        · cases h; exact ⟨by decide, by omega, by simp, by simp, by intro; exact d2.1⟩
    · cases h; exact ⟨by decide, by omega, by simp, by simp, by simp⟩

theorem check_cxc {l r lock redeem : Bytes} {ty : InType} (h : checkCxc l r = .ok (lock, redeem, ty)) : Checked lock redeem ty := by
  unfold checkCxc at h
  cases hl : Hex.decode l with
  | err => rw [hl] at h; cases h
  | panic => rw [hl] at h; cases h
  | ok s =>
    rw [hl] at h
    dsimp only at h
    split_ifs at h with c1 c2 c3 c4
    · cases h; exact ⟨by decide, by omega, by intro; omega, by simp, by simp⟩
    · cases hr : Hex.decode r with
      | err => rw [hr] at h; cases h
      | panic => rw [hr] at h; cases h
      | ok x =>
        rw [hr] at h
        dsimp only at h
        split_ifs at h with d1 d2
        · cases h; exact ⟨by decide, by omega, by simp, by intro; omega, by simp⟩
        · cases h; exact ⟨by decide, by omega, by simp, by simp, by intro; exact d2.1⟩
    · cases h; exact ⟨by decide, by omega, by simp, by simp, by simp⟩

theorem ne_panic_of_cases {α : Type} {x : Res α} (h : x ≠ .panic) : x = .err ∨ ∃ a, x = .ok a := by
  cases x with
  | ok a => exact Or.inr ⟨a, rfl⟩
  | err => exact Or.inl rfl
  | panic => exact absurd rfl h

theorem checkBtc_ne_panic (l r : Bytes) : Btc.checkScriptType l r ≠ .panic := by
  unfold Btc.checkScriptType
  cases Hex.decode l with
  | err => simp
  | panic => simp
  | ok s =>
    dsimp only
    cases Hex.decode r <;> dsimp only <;> split_ifs <;> simp

theorem checkBch_ne_panic (l r : Bytes) : checkBch l r ≠ .panic := by
  unfold checkBch
  cases Hex.decode l with
  | err => simp
  | panic => simp
  | ok s =>
    dsimp only
    cases Hex.decode r <;> dsimp only <;> split_ifs <;> simp

theorem checkCxc_ne_panic (l r : Bytes) : checkCxc l r ≠ .panic := by
  unfold checkCxc
  cases Hex.decode l with
  | err => simp
  | panic => simp
  | ok s =>
    dsimp only
    cases Hex.decode r <;> dsimp only <;> split_ifs <;> simp

theorem encode_ne_panic (seg : Bool) (t : Tx) : encodeTx seg t ≠ .panic := by
  unfold encodeTx
  split_ifs with c1 c2
  · simp
  · refine bind_ne_panic (concat_ne_panic _ (by intro x; unfold encodeIn; split_ifs <;> simp) _) fun _ _ => ?_
    refine bind_ne_panic (concat_ne_panic _ (by intro x; unfold encodeOut; split_ifs <;> simp) _) fun _ _ => ?_
    exact bind_ne_panic (concat_ne_panic _ (by intro x; unfold encodeWitness; split <;> simp) _) (by simp)
  · refine bind_ne_panic (concat_ne_panic _ (by intro x; unfold encodeIn; split_ifs <;> simp) _) fun _ _ => ?_
    exact bind_ne_panic (concat_ne_panic _ (by intro x; unfold encodeOut; split_ifs <;> simp) _) (by simp)

theorem code_ne_panic {r : Bytes} (h : 2 ≤ r.length) : scriptCode r ≠ .panic := by
  unfold scriptCode
  rw [index_ok (show 0 < r.length by omega), index_ok (show 1 < r.length by omega)]
  simp only [Res.bind_ok]
  split_ifs <;> simp

theorem segwit_ne_panic (H : Hashes) (t : Tx) {r : Bytes} (h : 2 ≤ r.length) (i : TxIn) (a : UInt64) : segwitBytesForSig H t r i a ≠ .panic := by
  unfold segwitBytesForSig
  refine bind_ne_panic (code_ne_panic h) fun _ _ => ?_
  split_ifs <;> simp

theorem bytes_ne_panic (H : Hashes) (seg : Bool) (t : Tx) {lock redeem : Bytes} {ty : InType} (hc : Checked lock redeem ty) (st : UInt8) {idx : Nat}
    (hi : idx < t.vins.length) (a : UInt64) : Btc.bytesForSig H seg t lock redeem ty st idx a ≠ .panic := by
  unfold Btc.bytesForSig
  by_cases h1 : st ≠ 1 ∧ ty ≠ .empty
  · rw [if_pos h1]; simp
  rw [if_neg h1]
  cases ty with
  | p2pkh => exact bind_ne_panic (encode_ne_panic _ _) (by simp)
  | p2wpkh => dsimp only; rw [index_ok hi, Res.bind_ok]; exact bind_ne_panic (segwit_ne_panic H t (hc.nested rfl).2 _ _) (by simp)
  | bech32 => dsimp only; rw [index_ok hi, Res.bind_ok]; exact bind_ne_panic (segwit_ne_panic H t hc.len _ _) (by simp)
  | multi =>
    dsimp only
    split_ifs
    · have := hc.multi rfl
      rw [index_ok hi, Res.bind_ok]
      exact bind_ne_panic (segwit_ne_panic H t (by omega) _ _) (by simp)
    · exact bind_ne_panic (encode_ne_panic _ _) (by simp)
  | empty => simp

theorem bytesBch_ne_panic (H : Hashes) (seg : Bool) (t : Tx) {lock redeem : Bytes} {ty : InType} (hc : Checked lock redeem ty) (st : UInt8) {idx : Nat}
    (hi : idx < t.vins.length) (a : UInt64) : bytesForSigBch H seg t lock redeem ty st idx a ≠ .panic := by
  unfold bytesForSigBch
  by_cases h1 : st ≠ 0x41 ∧ ty ≠ .empty
  · rw [if_pos h1]; simp
  rw [if_neg h1]
  cases ty with
  | p2pkh => dsimp only; rw [index_ok hi, Res.bind_ok]; exact bind_ne_panic (segwit_ne_panic H t hc.len _ _) (by simp)
  | p2wpkh => dsimp only; rw [index_ok hi, Res.bind_ok]; exact bind_ne_panic (segwit_ne_panic H t hc.len _ _) (by simp)
  | bech32 => dsimp only; rw [index_ok hi, Res.bind_ok]; exact bind_ne_panic (segwit_ne_panic H t hc.len _ _) (by simp)
  | multi =>
    dsimp only
    split_ifs
    · have := hc.multi rfl
      rw [index_ok hi, Res.bind_ok]
      exact bind_ne_panic (segwit_ne_panic H t (by omega) _ _) (by simp)
    · exact bind_ne_panic (encode_ne_panic _ _) (by simp)
  | empty => simp

theorem readKeys_ne_panic : ∀ (f : Nat) (b : Bytes), readKeys f b ≠ .panic
  | 0, _ => by simp [readKeys]
  | f + 1, b => by
    unfold readKeys
    split
    · simp
    · split_ifs
      · simp
      · simp
      · cases h : readKeys f (List.drop 33 _) with
        | ok x => simp
        | err => simp
        | panic => exact absurd h (readKeys_ne_panic f _)

theorem details_ne_panic (r : Bytes) : getMultiDetails r ≠ .panic := by
  unfold getMultiDetails
  refine bind_ne_panic (take1_ne_panic _) fun ⟨_, _⟩ _ => ?_
  dsimp only
  split_ifs
  · simp
  refine bind_ne_panic (readKeys_ne_panic _ _) fun ⟨_, _⟩ _ => ?_
  dsimp only
  refine bind_ne_panic (take1_ne_panic _) fun ⟨_, _⟩ _ => ?_
  dsimp only
  split_ifs <;> simp

theorem bech32_total (hrp h : Bytes) : ∃ a, Bech32.encode hrp Bech32.stdAlphabet h [0] = .ok a := by
  have hv : ∀ v ∈ [0].map UInt8.toNat ++ Bech32.extendPayload h, v < 32 := by
    intro v hv
    rcases List.mem_append.mp hv with hv | hv
    · simp at hv; omega
    · exact Bech32.extendPayload_lt h v hv
  obtain ⟨cs, h1, _⟩ := Bech32.stdChars ([0].map UInt8.toNat ++ Bech32.extendPayload h ++ Bech32.calcChecksum hrp ([0].map UInt8.toNat ++ Bech32.extendPayload h))
    (by
      intro v hm
      rcases List.mem_append.mp hm with hm | hm
      · exact hv v hm
      · exact PolyMod.symbolsOf_lt _ _ v hm)
  unfold Bech32.encode
  dsimp only
  rw [h1]
  exact ⟨_, rfl⟩

/-- The record made for an input: of which kind it is. -/
def IsRecord (ty : InType) (h : TxHash) : Prop :=
  (ty ≠ .multi → h.nRequired = 0 ∧ h.normal ≠ none ∧ h.multi = []) ∧ (ty = .multi → h.nRequired ≠ 0 ∧ h.normal = none)

theorem newHash_ne_panic (H : Hashes) (hash : Bytes) {lock redeem : Bytes} {ty : InType} (hc : Checked lock redeem ty) (st : UInt8) (P : AddressPrefix) :
    Btc.newTxHash H hash lock redeem ty st P ≠ .panic := by
  unfold Btc.newTxHash
  cases ty with
  | p2pkh =>
    have := hc.p2pkh rfl
    dsimp only
    rw [slice_ok (by omega) (by omega), Res.bind_ok]
    obtain ⟨a, ha, _⟩ := CheckMem.encodeCheck_total H P.p2pkh ((lock.take 23).drop 3)
    rw [ha]; simp
  | p2wpkh =>
    have := (hc.nested rfl).1
    dsimp only
    rw [slice_ok (by omega) (by omega), Res.bind_ok]
    obtain ⟨a, ha, _⟩ := CheckMem.encodeCheck_total H P.p2wpkh ((lock.take 22).drop 2)
    rw [ha]; simp
  | bech32 =>
    have := hc.len
    dsimp only
    rw [slice_ok (by omega) (by omega), Res.bind_ok]
    obtain ⟨a, ha⟩ := bech32_total P.bech32 ((lock.take lock.length).drop 2)
    rw [ha]; simp
  | multi =>
    dsimp only
    exact bind_ne_panic (details_ne_panic _) (by simp)
  | empty => exact absurd rfl hc.kind

theorem newHashBch_ne_panic (p : Hashes → AddressPrefix → Bytes → Res Bytes) (hp : ∀ H P h, h.length = 20 → p H P h ≠ .panic)
    (H : Hashes) (hash : Bytes) {lock redeem : Bytes} {ty : InType} (hc : Checked lock redeem ty) (hb : ty ≠ .bech32) (st : UInt8) (P : AddressPrefix) :
    newTxHashBch p H hash lock redeem ty st P ≠ .panic := by
  unfold newTxHashBch
  cases ty with
  | p2pkh =>
    have := hc.p2pkh rfl
    dsimp only
    rw [slice_ok (by omega) (by omega), Res.bind_ok]
    exact bind_ne_panic (hp H P _ (by simp; omega)) (by simp)
  | p2wpkh =>
    have := (hc.nested rfl).1
    dsimp only
    rw [slice_ok (by omega) (by omega), Res.bind_ok]
    obtain ⟨a, ha, _⟩ := CheckMem.encodeCheck_total H P.p2wpkh ((lock.take 22).drop 2)
    rw [ha]; simp
  | bech32 => exact absurd rfl hb
  | multi =>
    dsimp only
    exact bind_ne_panic (details_ne_panic _) (by simp)
  | empty => exact absurd rfl hc.kind

theorem after_length (V : Variant) (seg : Bool) (t : Tx) (idx : Nat) (u : TxUnlock) : (afterSig V seg t idx u).vins.length = t.vins.length := by
  unfold BtcVariants.afterSig
  dsimp only
  split
  · split <;> simp
  · simp

/-- The loop panics only if one of its steps does. -/
theorem loop_panics (V : Variant) (H : Hashes) (seg : Bool) (P : AddressPrefix) : ∀ (us : List TxUnlock) (t : Tx) (idx : Nat),
    hashesLoop V H seg P t idx us = .panic → idx + us.length = t.vins.length →
    ∃ t' k, ∃ u ∈ us, k < t'.vins.length ∧ hashForSig V H seg P t' k u = .panic
  | [], t, idx, h, _ => by simp [BtcVariants.hashesLoop] at h
  | u :: us, t, idx, h, hl => by
    rw [List.length_cons] at hl
    rw [BtcVariants.hashesLoop] at h
    rcases Res.bind_eq_panic.mp h with h | ⟨a, _, h⟩
    · exact ⟨t, idx, u, by simp, by omega, h⟩
    · rcases Res.bind_eq_panic.mp h with h | ⟨b, _, h⟩
      · obtain ⟨t', k, u', h1, h2, h3⟩ := loop_panics V H seg P us _ _ h (by rw [after_length]; omega)
        exact ⟨t', k, u', by simp [h1], h2, h3⟩
      · cases h

theorem hashes_panics {V : Variant} {H : Hashes} {seg : Bool} {P : AddressPrefix} {text : Bytes} {us : List TxUnlock}
    (h : createHashes V H text us seg P = .panic) : (seg = true ∧ ∃ b, HexText text b ∧ CutWitness V.version b) ∨
      ∃ t' k, ∃ u ∈ us, k < t'.vins.length ∧ hashForSig V H seg P t' k u = .panic := by
  unfold BtcVariants.createHashes at h
  rcases Res.bind_eq_panic.mp h with h | ⟨b, hb, h⟩
  · exact absurd h (Hex.decode_ne_panic _)
  rcases Res.bind_eq_panic.mp h with h | ⟨t, ht, h⟩
  · obtain ⟨h1, h2⟩ := (C23_panic_hex_exact V.version seg b).mp h
    exact Or.inl ⟨h1, b, (Eip.decode_iff _ _).mp hb, h2⟩
  · unfold BtcVariants.hashesForSig at h
    split_ifs at h with c1
    simp only [ne_eq, not_not] at c1
    exact Or.inr (loop_panics V H seg P us t 0 h (by omega))

theorem hashes_cut (V : Variant) (H : Hashes) (P : AddressPrefix) (us : List TxUnlock) {text b : Bytes} (hb : HexText text b) (hc : CutWitness V.version b) :
    createHashes V H text us true P = .panic := by
  unfold BtcVariants.createHashes
  rw [(Eip.decode_iff _ _).mpr hb, Res.bind_ok, (C23_panic_hex_exact V.version true b).mpr ⟨rfl, hc⟩]
  rfl

theorem step_ne_panic {V : Variant} (hV : V = cxc ∨ V = hc) (H : Hashes) (seg : Bool) (P : AddressPrefix) (t : Tx) (k : Nat) (hk : k < t.vins.length)
    (u : TxUnlock) : hashForSig V H seg P t k u ≠ .panic := by
  unfold BtcVariants.hashForSig
  have hlen : k < ({ t with vins := t.vins.map setEmpty } : Tx).vins.length := by simpa using hk
  rcases hV with rfl | rfl
  · refine bind_ne_panic (checkCxc_ne_panic _ _) fun ⟨lock, redeem, ty⟩ hx => ?_
    have hc := check_cxc hx
    refine bind_ne_panic (bytes_ne_panic H seg _ hc _ hlen _) fun _ _ => newHash_ne_panic H _ hc _ _
  · refine bind_ne_panic (checkBtc_ne_panic _ _) fun ⟨lock, redeem, ty⟩ hx => ?_
    have hc := check_btc hx
    refine bind_ne_panic (bytes_ne_panic H seg _ hc _ hlen _) fun _ _ => newHash_ne_panic H _ hc _ _

theorem bch_address (H : Hashes) (P : AddressPrefix) (h : Bytes) (hl : h.length = 20) : bchAddress H P h ≠ .panic := by
  obtain ⟨t, ht, _⟩ := C12_cashaddr_roundtrip_partial H h hl
  unfold bchAddress
  rw [ht]; simp

theorem bsv_address (H : Hashes) (P : AddressPrefix) (h : Bytes) (_ : h.length = 20) : bsvAddress H P h ≠ .panic := by
  obtain ⟨t, ht, _⟩ := CheckMem.encodeCheck_total H P.p2pkh h
  unfold bsvAddress
  rw [ht]; simp

/-- Unlocking data for an output that pays to a 20-byte witness program, with which these packages do not report an error. -/
def WitnessUnlock (u : TxUnlock) : Prop :=
  (∃ kh : Bytes, kh.length = 20 ∧ HexText u.lockScript (witnessV0Script kh)) ∧ u.redeemScript = [] ∧ u.sigType = 0x41 ∧ u.amount ≠ 0

theorem program_of {s : Bytes} (h : s.length = 22 ∧ s[0]? = some 0x00 ∧ s[1]? = some 0x14) : ∃ kh : Bytes, kh.length = 20 ∧ s = witnessV0Script kh := by
  obtain ⟨h1, h2, h3⟩ := h
  match s, h1, h2, h3 with
  | a :: b :: t, h1, h2, h3 =>
    simp only [List.getElem?_cons_zero, Option.some.injEq, List.getElem?_cons_succ] at h2 h3
    simp only [List.length_cons] at h1
    have ht : t.length = 20 := by omega
    refine ⟨t, ht, ?_⟩
    subst h2; subst h3
    unfold witnessV0Script push
    rw [ht]; rfl

theorem check_bch_witness {l r lock redeem : Bytes} (h : checkBch l r = .ok (lock, redeem, .bech32)) :
    r = [] ∧ ∃ kh : Bytes, kh.length = 20 ∧ HexText l (witnessV0Script kh) := by
  unfold checkBch at h
  cases hl : Hex.decode l with
  | err => rw [hl] at h; cases h
  | panic => rw [hl] at h; cases h
  | ok s =>
    rw [hl] at h
    dsimp only at h
    split_ifs at h with c1 c2 c3 c4
    · cases h
    · cases hr : Hex.decode r with
      | err => rw [hr] at h; cases h
      | panic => rw [hr] at h; cases h
      | ok x =>
        rw [hr] at h
        dsimp only at h
        split_ifs at h <;> cases h
    · obtain ⟨kh, hk, rfl⟩ := program_of c3
      exact ⟨by simpa using c4, kh, hk, (Eip.decode_iff _ _).mp hl⟩

theorem step_bch {V : Variant} (hV : V = bch ∨ V = bsv) (H : Hashes) (seg : Bool) (P : AddressPrefix) (t : Tx) (k : Nat) (hk : k < t.vins.length)
    (u : TxUnlock) (h : hashForSig V H seg P t k u = .panic) : WitnessUnlock u := by
  have hlen : k < ({ t with vins := t.vins.map setEmpty } : Tx).vins.length := by simpa using hk
  have main : ∀ p : Hashes → AddressPrefix → Bytes → Res Bytes, (∀ H P h, h.length = 20 → p H P h ≠ .panic) → (do
      let (lock, redeem, ty) ← checkBch u.lockScript u.redeemScript
      let b ← bytesForSigBch H seg { t with vins := t.vins.map setEmpty } lock redeem ty u.sigType k u.amount
      newTxHashBch p H (H.hash .doubleSha256 b) lock redeem ty u.sigType P) = .panic → WitnessUnlock u := by
    intro p hp h
    rcases Res.bind_eq_panic.mp h with h | ⟨⟨lock, redeem, ty⟩, hx, h⟩
    · exact absurd h (checkBch_ne_panic _ _)
    dsimp only at h
    have hc := check_bch hx
    rcases Res.bind_eq_panic.mp h with h | ⟨b, hb, h⟩
    · exact absurd h (bytesBch_ne_panic H seg _ hc _ hlen _)
    by_cases hty : ty = .bech32
    · subst hty
      obtain ⟨h1, h2⟩ := check_bch_witness hx
      refine ⟨h2, h1, ?_, ?_⟩
      · by_contra h3
        unfold bytesForSigBch at hb
        rw [if_pos ⟨h3, by decide⟩] at hb
        cases hb
      · intro h3
        unfold bytesForSigBch at hb
        by_cases h4 : u.sigType ≠ 0x41 ∧ InType.bech32 ≠ .empty
        · rw [if_pos h4] at hb; cases hb
        rw [if_neg h4] at hb
        dsimp only at hb
        rw [index_ok hlen, Res.bind_ok] at hb
        obtain ⟨c, hc, _⟩ := Res.bind_eq_ok.mp hb
        unfold segwitBytesForSig at hc
        obtain ⟨_, _, hc⟩ := Res.bind_eq_ok.mp hc
        rw [if_pos h3] at hc
        cases hc
    · exact absurd h (newHashBch_ne_panic p hp H _ hc hty _ P)
  rcases hV with rfl | rfl
  · exact main bchAddress bch_address h
  · exact main bsvAddress bsv_address h

theorem step_zen (H : Hashes) (seg : Bool) (P : AddressPrefix) (t : Tx) (k : Nat)
    (u : TxUnlock) (h : hashForSig zen H seg P t k u = .panic) : (Hex.decodePrefix u.lockScript).length < 23 := by
  by_contra hc
  revert h
  unfold BtcVariants.hashForSig
  refine bind_ne_panic (by simp [zen, checkZen]) fun ⟨lock, redeem, ty⟩ hx => ?_
  cases hx
  dsimp only
  refine bind_ne_panic ?_ fun b _ => ?_
  · simp only [zen, Btc.bytesForSig]
    split_ifs
    · simp
    · exact bind_ne_panic (encode_ne_panic _ _) (by simp)
  · simp only [zen, Btc.newTxHash]
    rw [slice_ok (by omega) (by omega), Res.bind_ok]
    obtain ⟨a, ha, _⟩ := CheckMem.encodeCheck_total H P.p2pkh (((Hex.decodePrefix u.lockScript).take 23).drop 3)
    rw [ha]; simp

/-! ### inserting -/

/-- No half of the signature is the number zero. -/
def NoZeroHalf (sig : Bytes) : Prop := sig.length = 64 → beNat (sig.take 32) ≠ 0 ∧ beNat (sig.drop 32) ≠ 0

theorem sig_ne_panic {sig : Bytes} (hl : sig.length = 64) (hz : NoZeroHalf sig) (st : UInt8) : encodeSig sig st ≠ .panic := by
  obtain ⟨h1, h2⟩ := hz hl
  obtain ⟨R, hR, _⟩ := derBody_spec (sig.take 32) (by simp [hl]) h1
  obtain ⟨S, hS, _⟩ := derBody_spec (sig.drop 32) (by simp [hl]) h2
  unfold encodeSig
  rw [slice_ok (by omega) (by omega), Res.bind_ok]
  simp only [List.drop_zero]
  rw [hR, Res.bind_ok, hS]
  simp

theorem sig_panic {sig : Bytes} (hl : sig.length = 64) (hz : ¬ NoZeroHalf sig) (st : UInt8) : encodeSig sig st = .panic := by
  unfold encodeSig
  rw [slice_ok (by omega) (by omega), Res.bind_ok]
  simp only [List.drop_zero]
  by_cases h1 : beNat (sig.take 32) = 0
  · rw [derBody_zero _ (by simp [hl]) h1]; rfl
  · obtain ⟨R, hR, _⟩ := derBody_spec (sig.take 32) (by simp [hl]) h1
    rw [hR, Res.bind_ok, derBody_zero (sig.drop 32) (by simp [hl]) (by
      by_contra h2
      exact hz fun _ => ⟨h1, h2⟩)]
    rfl

theorem count_ne_panic : ∀ (l : List MultiTx) (c : UInt8), countSigs l c ≠ .panic
  | [], _ => by simp [countSigs]
  | m :: l, c => by
    unfold countSigs
    split_ifs
    · exact count_ne_panic l c
    · simp
    · exact count_ne_panic l _

theorem count_len : ∀ {l : List MultiTx} {c d : UInt8}, countSigs l c = .ok d → ∀ m ∈ l, ∀ sig, m.sigPub.signature = some sig → sig.length = 64
  | [], _, _, _, m, hm, _, _ => by simp at hm
  | x :: l, c, d, h, m, hm, sig, hs => by
    unfold countSigs at h
    split_ifs at h with c1 c2
    · rcases List.mem_cons.mp hm with rfl | hm
      · rw [c1.2] at hs; cases hs
      · exact count_len h m hm sig hs
    · rcases List.mem_cons.mp hm with rfl | hm
      · rw [hs] at c2
        simp only [Option.getD_some] at c2
        push Not at c2
        exact c2.2
      · exact count_len h m hm sig hs

theorem append_ne_panic (n : UInt8) : ∀ (l : List MultiTx) (c : UInt8),
    (∀ m ∈ l, ∀ sig, m.sigPub.signature = some sig → sig.length = 64 ∧ NoZeroHalf sig) → appendSigs n l c ≠ .panic
  | [], _, _ => by simp [appendSigs]
  | m :: l, c, h => by
    have ih := fun c => append_ne_panic n l c (fun m hm => h m (by simp [hm]))
    unfold appendSigs
    cases hs : m.sigPub.signature with
    | none => exact ih c
    | some sig =>
      obtain ⟨h1, h2⟩ := h m (by simp) sig hs
      refine bind_ne_panic (sig_ne_panic h1 h2 _) fun _ _ => ?_
      split_ifs
      · simp
      · exact bind_ne_panic (ih _) (by simp)

/-- A record that a signer may have returned: one that asks for no multisig signatures has its place for a single one, and no signature has a half
that is zero. -/
structure Fair (h : TxHash) : Prop where
  place : h.nRequired = 0 → h.normal ≠ none
  single : ∀ n sig, h.normal = some n → n.sigPub.signature = some sig → NoZeroHalf sig
  multi : ∀ m ∈ h.multi, ∀ sig, m.sigPub.signature = some sig → NoZeroHalf sig

theorem script_ne_panic {h : TxHash} (hf : Fair h) (redeem : Bytes) (seg : Bool) : encodeToScript h redeem seg ≠ .panic := by
  unfold encodeToScript
  by_cases h0 : h.nRequired = 0
  · rw [if_pos h0]
    cases hn : h.normal with
    | none => exact absurd hn (hf.place h0)
    | some n =>
      dsimp only
      split_ifs with c1 c2
      · simp
      · simp
      · simp only [ne_eq, not_not] at c1
        cases hs : n.sigPub.signature with
        | none => rw [hs] at c1; simp at c1
        | some sig =>
          rw [hs] at c1
          simp only [Option.getD_some] at c1 ⊢
          unfold encodeSigPub
          exact bind_ne_panic (sig_ne_panic c1 (hf.single n sig hn hs) _) (by simp)
  · rw [if_neg h0]
    refine bind_ne_panic (count_ne_panic _ _) fun c hc => ?_
    have hl := append_ne_panic h.nRequired h.multi 0 fun m hm sig hs => ⟨count_len hc m hm sig hs, hf.multi m hm sig hs⟩
    dsimp only
    split_ifs <;> first
      | (simp; done)
      | (refine bind_ne_panic (by simp) fun _ _ => bind_ne_panic hl fun _ _ => ?_; first | (simp; done) | (split_ifs <;> simp))

theorem insert_loop (V : Variant) (hV : ∀ l r, V.check l r ≠ .panic) (H : Hashes) (seg sw : Bool) (hashes : List TxHash) (hf : ∀ h ∈ hashes, Fair h) :
    ∀ (is : List TxIn) (us : List TxUnlock) (idx : Nat), is.length = us.length → idx + us.length ≤ hashes.length →
    BtcVariants.insertLoop V H seg sw hashes idx is us ≠ .panic
  | [], _, _, _, _ => by simp [BtcVariants.insertLoop]
  | _ :: _, [], _, h, _ => by simp at h
  | i :: is, u :: us, idx, hl, hk => by
    simp only [List.length_cons] at hl hk
    have ih := insert_loop V hV H seg sw hashes hf is us (idx + 1) (by omega) (by omega)
    rw [BtcVariants.insertLoop]
    cases hc : V.check u.lockScript u.redeemScript with
    | err => simp
    | panic => exact absurd hc (hV _ _)
    | ok x =>
      obtain ⟨lock, redeem, ty⟩ := x
      have hi : index hashes idx = .ok hashes[idx] := index_ok (by omega)
      have hs := script_ne_panic (hf hashes[idx] (by simp)) redeem seg
      dsimp only
      rw [hi]
      have tail : ∀ new : TxIn, (do
          let rest ← BtcVariants.insertLoop V H seg sw hashes (idx + 1) is us
          Res.ok (rest.map (new :: ·))) ≠ .panic := fun new => bind_ne_panic ih (by simp)
      cases ty with
      | p2pkh => rw [Res.bind_ok]; exact bind_ne_panic hs fun _ _ => tail _
      | multi => dsimp only; rw [Res.bind_ok]; exact bind_ne_panic hs fun _ _ => tail _
      | empty => exact tail _
      | p2wpkh =>
        dsimp only
        cases seg with
        | false => simp
        | true => rw [Res.bind_ok]; exact bind_ne_panic hs fun _ _ => tail _
      | bech32 =>
        dsimp only
        cases seg with
        | false => simp
        | true => rw [Res.bind_ok]; exact bind_ne_panic hs fun _ _ => tail _

theorem segwitGo_ne_panic (V : Variant) (hV : ∀ l r, V.check l r ≠ .panic) (seg : Bool) : ∀ us, BtcVariants.isSegwit.go V seg us ≠ .panic
  | [] => by simp [BtcVariants.isSegwit.go]
  | u :: us => by
    rw [BtcVariants.isSegwit.go]
    refine bind_ne_panic (hV _ _) fun ⟨_, _, _⟩ _ => ?_
    dsimp only
    split_ifs
    · simp
    · exact segwitGo_ne_panic V hV seg us

theorem isSegwit_ne_panic (V : Variant) (hV : ∀ l r, V.check l r ≠ .panic) (seg : Bool) (us : List TxUnlock) : BtcVariants.isSegwit V seg us ≠ .panic := by
  cases us with
  | nil => simp [BtcVariants.isSegwit]
  | cons u us => exact segwitGo_ne_panic V hV seg (u :: us)

theorem insert_panics (V : Variant) (hV : ∀ l r, V.check l r ≠ .panic) (H : Hashes) (text : Bytes) (hashes : List TxHash) (us : List TxUnlock) (seg : Bool)
    (hl : us.length ≤ hashes.length) (hf : ∀ h ∈ hashes, Fair h) :
    BtcVariants.insertSignatures V H text hashes us seg = .panic ↔ seg = true ∧ ∃ b, HexText text b ∧ CutWitness V.version b := by
  constructor
  · intro h
    unfold BtcVariants.insertSignatures at h
    rcases Res.bind_eq_panic.mp h with h | ⟨b, hb, h⟩
    · exact absurd h (Hex.decode_ne_panic _)
    rcases Res.bind_eq_panic.mp h with h | ⟨t, ht, h⟩
    · obtain ⟨h1, h2⟩ := (C23_panic_hex_exact V.version seg b).mp h
      exact ⟨h1, b, (Eip.decode_iff _ _).mp hb, h2⟩
    exfalso
    by_cases c1 : us = [] ∨ hashes = [] ∨ t.vins = [] ∨ t.vouts = [] ∨ t.vins.length ≠ us.length
    · rw [if_pos c1] at h; cases h
    rw [if_neg c1] at h
    push Not at c1
    cases hs : BtcVariants.isSegwit V seg us with
    | err => rw [hs] at h; cases h
    | panic => exact isSegwit_ne_panic V hV seg us hs
    | ok sw =>
      rw [hs] at h
      dsimp only at h
      split_ifs at h
      rcases Res.bind_eq_panic.mp h with h | ⟨r, hr, h⟩
      · exact insert_loop V hV H seg sw hashes hf _ _ 0 c1.2.2.2.2 (by omega) h
      · cases r with
        | none => cases h
        | some ins =>
          dsimp only at h
          rcases Res.bind_eq_panic.mp h with h | ⟨r, hr, h⟩
          · exact encode_ne_panic _ _ h
          · cases h
  · rintro ⟨rfl, b, hb, hc⟩
    unfold BtcVariants.insertSignatures
    rw [(Eip.decode_iff _ _).mpr hb, Res.bind_ok, (C23_panic_hex_exact V.version true b).mpr ⟨rfl, hc⟩]
    rfl

/-- A record without the signature it needs, or with one that has a zero half. -/
def Bad (h : TxHash) : Prop :=
  h.nRequired = 0 ∧ (h.normal = none ∨ ∃ n sig pub, h.normal = some n ∧ n.sigPub.signature = some sig ∧ n.sigPub.pubkey = some pub ∧
    sig.length = 64 ∧ pub.length = 33 ∧ (beNat (sig.take 32) = 0 ∨ beNat (sig.drop 32) = 0))

theorem bad_panics {h : TxHash} (hb : Bad h) (redeem : Bytes) (seg : Bool) : encodeToScript h redeem seg = .panic := by
  obtain ⟨h0, hn | ⟨n, sig, pub, hn, hs, hp, h1, h2, hz⟩⟩ := hb
  · unfold encodeToScript; rw [if_pos h0, hn]
  · unfold encodeToScript
    rw [if_pos h0, hn]
    simp only [hs, hp, Option.getD_some]
    rw [if_neg (by simp [h1]), if_neg (by simp [h2])]
    unfold encodeSigPub
    rw [sig_panic h1 (by intro h; have := h h1; tauto)]
    rfl

/-- If one insertion succeeds, another that has the same records up to the k-th and fails there panics. -/
theorem insert_differs (V : Variant) (hV : ∀ l r lock redeem ty, V.check l r = .ok (lock, redeem, ty) → ty ≠ .empty) (H : Hashes) (seg sw : Bool) (hashes other : List TxHash) (k : Nat)
    (hsame : ∀ j < k, other[j]? = hashes[j]?) (hbad : ∀ h, other[k]? = some h → Bad h) :
    ∀ (is : List TxIn) (us : List TxUnlock) (idx : Nat) (x : List TxIn), BtcVariants.insertLoop V H seg sw hashes idx is us = .ok (some x) →
    idx ≤ k → k < idx + is.length → BtcVariants.insertLoop V H seg sw other idx is us = .panic
  | [], _, _, _, _, h1, h2 => by simp at h2; omega
  | _ :: _, [], _, _, h, _, _ => by simp [BtcVariants.insertLoop] at h
  | i :: is, u :: us, idx, x, h, h1, h2 => by
    rw [List.length_cons] at h2
    rw [BtcVariants.insertLoop] at h ⊢
    cases hc : V.check u.lockScript u.redeemScript with
    | err => rw [hc] at h; cases h
    | panic => rw [hc] at h
    | ok y =>
      obtain ⟨lock, redeem, ty⟩ := y
      rw [hc] at h
      have hty := hV _ _ _ _ _ hc
      by_cases hk : idx = k
      · subst hk
        have : ∀ {β : Type} (f : TxHash → Bytes → Res β), (do let h ← index other idx; let s ← encodeToScript h redeem seg; f h s) = .panic := by
          intro β f
          unfold index
          cases ho : other[idx]? with
          | none => rfl
          | some h => simp only [Res.bind_ok]; rw [bad_panics (hbad h ho)]; rfl
        cases ty with
        | empty => exact absurd rfl hty
        | p2pkh => exact this fun _ _ => _
        | multi => exact this fun _ _ => _
        | p2wpkh =>
          cases seg with
          | false => cases h
          | true => exact this fun _ _ => _
        | bech32 =>
          cases seg with
          | false => cases h
          | true => exact this fun _ _ => _
      · have hi : index other idx = index hashes idx := by
          unfold index; rw [hsame idx (by omega)]
        have ih := fun y hy => insert_differs V hV H seg sw hashes other k hsame hbad is us (idx + 1) y hy (by omega) (by omega)
        have tail : ∀ {a : TxIn} {z}, (do
            let rest ← BtcVariants.insertLoop V H seg sw hashes (idx + 1) is us
            Res.ok (rest.map (a :: ·))) = .ok (some z) → BtcVariants.insertLoop V H seg sw other (idx + 1) is us = .panic := by
          intro a z hz
          obtain ⟨r, hr, hz⟩ := Res.bind_eq_ok.mp hz
          cases r with
          | none => simp at hz
          | some y => exact ih y hr
        cases ty with
        | empty => exact absurd rfl hty
        | p2pkh =>
          dsimp only at h ⊢
          rw [hi]
          obtain ⟨a, ha, h⟩ := Res.bind_eq_ok.mp h
          obtain ⟨b, hb, h⟩ := Res.bind_eq_ok.mp h
          rw [ha, Res.bind_ok, hb, Res.bind_ok, Res.bind_ok, tail h]; rfl
        | multi =>
          dsimp only at h ⊢
          rw [hi]
          obtain ⟨a, ha, h⟩ := Res.bind_eq_ok.mp h
          obtain ⟨b, hb, h⟩ := Res.bind_eq_ok.mp h
          rw [ha, Res.bind_ok, hb, Res.bind_ok, Res.bind_ok, tail h]; rfl
        | p2wpkh =>
          cases seg with
          | false => cases h
          | true =>
            dsimp only [Bool.not_true] at h ⊢
            rw [hi]
            obtain ⟨a, ha, h⟩ := Res.bind_eq_ok.mp h
            obtain ⟨b, hb, h⟩ := Res.bind_eq_ok.mp h
            rw [ha, Res.bind_ok, hb, Res.bind_ok, Res.bind_ok, tail h]; rfl
        | bech32 =>
          cases seg with
          | false => cases h
          | true =>
            dsimp only [Bool.not_true] at h ⊢
            rw [hi]
            obtain ⟨a, ha, h⟩ := Res.bind_eq_ok.mp h
            obtain ⟨b, hb, h⟩ := Res.bind_eq_ok.mp h
            rw [ha, Res.bind_ok, hb, Res.bind_ok, Res.bind_ok, tail h]; rfl

theorem insert_other (V : Variant) (hV : ∀ l r lock redeem ty, V.check l r = .ok (lock, redeem, ty) → ty ≠ .empty) (H : Hashes) (text : Bytes) (hashes other : List TxHash) (us : List TxUnlock)
    (seg : Bool) (signed : Bytes) (hok : BtcVariants.insertSignatures V H text hashes us seg = .ok signed) (hne : signed ≠ []) (k : Nat) (hk : k < us.length)
    (hsame : ∀ j < k, other[j]? = hashes[j]?) (hbad : ∀ h, other[k]? = some h → Bad h) (ho : other ≠ []) :
    BtcVariants.insertSignatures V H text other us seg = .panic := by
  unfold BtcVariants.insertSignatures at hok ⊢
  obtain ⟨b, hb, hok⟩ := Res.bind_eq_ok.mp hok
  obtain ⟨t, ht, hok⟩ := Res.bind_eq_ok.mp hok
  rw [hb, Res.bind_ok, ht, Res.bind_ok]
  by_cases c1 : us = [] ∨ hashes = [] ∨ t.vins = [] ∨ t.vouts = [] ∨ t.vins.length ≠ us.length
  · rw [if_pos c1] at hok; cases hok
  rw [if_neg c1] at hok
  rw [if_neg (by tauto)]
  cases hs : BtcVariants.isSegwit V seg us with
  | err => rw [hs] at hok; cases hok; exact absurd rfl hne
  | panic => rw [hs] at hok
  | ok sw =>
    rw [hs] at hok
    dsimp only at hok ⊢
    by_cases c2 : sw = true ∧ (!seg) = true
    · rw [if_pos c2] at hok; cases hok
    rw [if_neg c2] at hok ⊢
    obtain ⟨r, hr, hok⟩ := Res.bind_eq_ok.mp hok
    cases r with
    | none => cases hok; exact absurd rfl hne
    | some x =>
      rw [insert_differs V hV H seg sw hashes other k hsame hbad _ _ 0 x hr (by omega) (by push Not at c1; omega)]
      rfl

theorem kinds {V : Variant} (hV : V ∈ [bch, bsv, cxc, hc, zen]) (l r lock redeem : Bytes) (ty : InType) (h : V.check l r = .ok (lock, redeem, ty)) : ty ≠ .empty := by
  simp only [List.mem_cons, List.not_mem_nil, or_false] at hV
  rcases hV with rfl | rfl | rfl | rfl | rfl
  · exact (check_bch h).kind
  · exact (check_bch h).kind
  · exact (check_cxc h).kind
  · exact (check_btc h).kind
  · cases h; decide

theorem checkZen_ne_panic (l r : Bytes) : checkZen l r ≠ .panic := by simp [checkZen]

end SignPanic

open SignPanic

/-- C141, exactly, for the hashes of the Bitcoin, CXC and HyperCash (`hcTransaction`) packages: `CreateRawTransactionHashForSig` panics if and only if segwit is on and the
text holds the beginning of a transaction with witness data that ends right behind the number of witness items of a multisig input. With segwit
off it never panics, whatever the text and the unlocking data. -/
theorem C141_hashes (H : Hashes) (text : Bytes) (us : List TxUnlock) (segwitOn : Bool) (P : AddressPrefix) :
    (Btc.createHashes H text us segwitOn P = .panic ↔ segwitOn = true ∧ ∃ b, HexText text b ∧ CutWitness 2 b) ∧
    (createHashes cxc H text us segwitOn P = .panic ↔ segwitOn = true ∧ ∃ b, HexText text b ∧ CutWitness 1 b) ∧
    (createHashes hc H text us segwitOn P = .panic ↔ segwitOn = true ∧ ∃ b, HexText text b ∧ CutWitness 2 b) := by
  have main : ∀ V, (V = cxc ∨ V = hc) → (createHashes V H text us segwitOn P = .panic ↔ segwitOn = true ∧ ∃ b, HexText text b ∧ CutWitness V.version b) := by
    intro V hV
    constructor
    · intro h
      rcases hashes_panics h with h | ⟨t, k, u, _, hk, h⟩
      · exact h
      · exact absurd h (step_ne_panic hV H segwitOn P t k hk u)
    · rintro ⟨rfl, b, hb, hc⟩
      exact hashes_cut V H P us hb hc
  refine ⟨?_, main cxc (Or.inl rfl), main hc (Or.inr rfl)⟩
  rw [← (C88_hc H ⟨id, fun _ _ _ => true⟩ P text us [] segwitOn).1]
  exact main hc (Or.inr rfl)

/-- A text the decoder panics on, and one that has the same bytes and one more: no panic. -/
example : ∃ text, Btc.createHashes toyHashes text [] true btcMainnet = .panic ∧ Btc.createHashes toyHashes (text ++ [0x30, 0x30]) [] true btcMainnet = .err := by
  refine ⟨Hex.encode (leBytes 4 2 ++ [0, 1, 1] ++ List.replicate 36 7 ++ [0x23] ++ List.replicate 35 9 ++ [0xff, 0xff, 0xff, 0xff] ++
    [1] ++ List.replicate 8 0 ++ [1, 0x51] ++ [0x04]), ?_, ?_⟩ <;> decide +kernel

/-- C141 for the hashes of Bitcoin Cash and Bitcoin SV: apart from the cut transactions of C23, `CreateRawTransactionHashForSig` can panic only if the unlocking data of some input is
for a 20-byte witness program, with hash type 0x41 and an amount. Missing: that it does not panic for those (it does, C87_witness_panics_violated). -/
theorem C141_hashes_fork_partial (V : Variant) (hV : V = bch ∨ V = bsv) (H : Hashes) (text : Bytes) (us : List TxUnlock) (segwitOn : Bool) (P : AddressPrefix)
    (hw : ∀ u ∈ us, ¬ ((∃ kh : Bytes, kh.length = 20 ∧ HexText u.lockScript (witnessV0Script kh)) ∧ u.redeemScript = [] ∧ u.sigType = 0x41 ∧ u.amount ≠ 0)) :
    createHashes V H text us segwitOn P = .panic ↔ segwitOn = true ∧ ∃ b, HexText text b ∧ CutWitness 1 b := by
  have hv : V.version = 1 := by rcases hV with rfl | rfl <;> rfl
  constructor
  · intro h
    rcases hashes_panics h with h | ⟨t, k, u, hu, hk, h⟩
    · rw [hv] at h; exact h
    · exact absurd (step_bch hV H segwitOn P t k hk u h) (hw u hu)
  · rintro ⟨rfl, b, hb, hc⟩
    exact hashes_cut V H P us hb (by rw [hv]; exact hc)

/-- C141 for the hashes of Horizen: apart from the cut transactions of C23, the call can panic only if a locking script has fewer than 23 bytes. Missing: what happens there (the
address reported depends on memory behind the script). -/
theorem C141_hashes_zen_partial (H : Hashes) (text : Bytes) (us : List TxUnlock) (segwitOn : Bool) (P : AddressPrefix)
    (hw : ∀ u ∈ us, ∃ s, HexText u.lockScript s ∧ 23 ≤ s.length) :
    createHashes zen H text us segwitOn P = .panic ↔ segwitOn = true ∧ ∃ b, HexText text b ∧ CutWitness 1 b := by
  constructor
  · intro h
    rcases hashes_panics h with h | ⟨t, k, u, hu, hk, h⟩
    · exact h
    · obtain ⟨s, hs, hl⟩ := hw u hu
      have := step_zen H segwitOn P t k u h
      rw [Hex.decodePrefix_of_ok _ _ ((Eip.decode_iff _ _).mpr hs)] at this
      omega
  · rintro ⟨rfl, b, hb, hc⟩
    exact hashes_cut zen H P us hb hc

/-- C141 for inserting signatures, for the six packages: if there is a record for every input, records that ask for no multisig signatures have their place for
a single one, and no 64-byte signature has a half that is the number zero, then `InsertSignatureIntoEmptyTransaction` panics only on the cut
transactions of C23 with segwit on. Missing: it panics on other records (below). -/
theorem C141_insert_partial (H : Hashes) (text : Bytes) (hashes : List TxHash) (us : List TxUnlock) (segwitOn : Bool) (hl : us.length ≤ hashes.length)
    (hplace : ∀ h ∈ hashes, h.nRequired = 0 → h.normal ≠ none)
    (hsingle : ∀ h ∈ hashes, ∀ n sig, h.normal = some n → n.sigPub.signature = some sig → sig.length = 64 →
      beNat (sig.take 32) ≠ 0 ∧ beNat (sig.drop 32) ≠ 0)
    (hmulti : ∀ h ∈ hashes, ∀ m ∈ h.multi, ∀ sig, m.sigPub.signature = some sig → sig.length = 64 → beNat (sig.take 32) ≠ 0 ∧ beNat (sig.drop 32) ≠ 0) :
    (Btc.insertSignatures H text hashes us segwitOn = .panic ↔ segwitOn = true ∧ ∃ b, HexText text b ∧ CutWitness 2 b) ∧
    (∀ V ∈ [bch, bsv, cxc, zen],
      (BtcVariants.insertSignatures V H text hashes us segwitOn = .panic ↔ segwitOn = true ∧ ∃ b, HexText text b ∧ CutWitness 1 b)) ∧
    (BtcVariants.insertSignatures hc H text hashes us segwitOn = .panic ↔ segwitOn = true ∧ ∃ b, HexText text b ∧ CutWitness 2 b) := by
  have hf : ∀ h ∈ hashes, Fair h := fun h hh => ⟨hplace h hh, hsingle h hh, hmulti h hh⟩
  have h2 := insert_panics hc checkBtc_ne_panic H text hashes us segwitOn hl hf
  refine ⟨?_, ?_, h2⟩
  · rw [← (C88_hc H ⟨id, fun _ _ _ => true⟩ ⟨[], [], [], []⟩ text us hashes segwitOn).2.1]
    exact h2
  · intro V hV
    simp only [List.mem_cons, List.not_mem_nil, or_false] at hV
    rcases hV with rfl | rfl | rfl | rfl
    · exact insert_panics bch checkBch_ne_panic H text hashes us segwitOn hl hf
    · exact insert_panics bsv checkBch_ne_panic H text hashes us segwitOn hl hf
    · exact insert_panics cxc checkCxc_ne_panic H text hashes us segwitOn hl hf
    · exact insert_panics zen checkZen_ne_panic H text hashes us segwitOn hl hf

/-- C141 is false for inserting: for every insertion that succeeds with a signed transaction, in each of the packages, giving the same records but only the first `k`
of them (at least one) panics instead of reporting that signatures are missing. -/
theorem C141_insert_few_violated (V : Variant) (hV : V ∈ [bch, bsv, cxc, hc, zen]) (H : Hashes) (text : Bytes) (hashes : List TxHash) (us : List TxUnlock) (segwitOn : Bool) (signed : Bytes)
    (hok : BtcVariants.insertSignatures V H text hashes us segwitOn = .ok signed) (hne : signed ≠ []) (k : Nat) (hk : 0 < k) (hu : k < us.length) :
    BtcVariants.insertSignatures V H text (hashes.take k) us segwitOn = .panic := by
  have hh : hashes ≠ [] := by
    rintro rfl
    unfold BtcVariants.insertSignatures at hok
    obtain ⟨b, hb, hok⟩ := Res.bind_eq_ok.mp hok
    obtain ⟨t, ht, hok⟩ := Res.bind_eq_ok.mp hok
    rw [if_pos (by simp)] at hok; cases hok
  refine insert_other V ?_ H text hashes _ us segwitOn signed hok hne k hu (fun j hj => by rw [List.getElem?_take, if_pos hj]) (fun h hh => ?_) ?_
  · exact kinds hV
  · rw [List.getElem?_take, if_neg (by omega)] at hh; cases hh
  · intro h
    rcases List.take_eq_nil_iff.mp h with h | h
    · omega
    · exact hh h

/-- C141 is false for inserting, second case: for every insertion that succeeds, replacing the `k`-th record by one with neither single nor multisig part, or by one whose
64-byte signature has a half that is zero, panics. -/
theorem C141_insert_zero_violated (V : Variant) (hV : V ∈ [bch, bsv, cxc, hc, zen]) (H : Hashes) (text : Bytes) (hashes : List TxHash) (us : List TxUnlock) (segwitOn : Bool) (signed : Bytes)
    (hok : BtcVariants.insertSignatures V H text hashes us segwitOn = .ok signed) (hne : signed ≠ []) (k : Nat) (hk : k < us.length) (h : TxHash) (h0 : h.nRequired = 0)
    (hbad : h.normal = none ∨ ∃ n sig pub, h.normal = some n ∧ n.sigPub.signature = some sig ∧ n.sigPub.pubkey = some pub ∧
      sig.length = 64 ∧ pub.length = 33 ∧ (beNat (sig.take 32) = 0 ∨ beNat (sig.drop 32) = 0)) :
    BtcVariants.insertSignatures V H text (hashes.set k h) us segwitOn = .panic := by
  have hh : hashes ≠ [] := by
    rintro rfl
    unfold BtcVariants.insertSignatures at hok
    obtain ⟨b, hb, hok⟩ := Res.bind_eq_ok.mp hok
    obtain ⟨t, ht, hok⟩ := Res.bind_eq_ok.mp hok
    rw [if_pos (by simp)] at hok; cases hok
  refine insert_other V (kinds hV) H text hashes _ us segwitOn signed hok hne k hk (fun j hj => by rw [List.getElem?_set_ne (by omega)]) (fun x hx => ?_) ?_
  · rw [List.getElem?_set] at hx
    simp only [if_true] at hx
    split_ifs at hx
    cases hx
    exact ⟨h0, hbad⟩
  · intro h'
    apply hh
    have := congrArg List.length h'
    rw [List.length_set] at this
    exact List.length_eq_zero_iff.mp this

/-- Two P2PKH inputs, signed records for both, only the first, and a zero signature in the second. -/
def fairRecord : TxHash := ⟨[], 0, some ⟨[], 1, ⟨some (List.replicate 64 1), some (2 :: List.replicate 32 10)⟩⟩, []⟩
def zeroRecord : TxHash := ⟨[], 0, some ⟨[], 1, ⟨some (List.replicate 64 0), some (2 :: List.replicate 32 10)⟩⟩, []⟩
def twoIns : Bytes := leBytes 4 2 ++ [2] ++ (List.replicate 36 7 ++ [0] ++ List.replicate 4 0xff) ++ (List.replicate 36 8 ++ [0] ++ List.replicate 4 0xff) ++ [1] ++ List.replicate 8 1 ++ [1, 0x51] ++ leBytes 4 0
def keyUnlock : TxUnlock := ⟨Hex.encode (p2pkhScript (List.replicate 20 5)), [], 0, 1⟩

example : ∃ signed, signed ≠ [] ∧ insertSignatures hc toyHashes (Hex.encode twoIns) [fairRecord, fairRecord] [keyUnlock, keyUnlock] true = .ok signed ∧
    insertSignatures hc toyHashes (Hex.encode twoIns) [fairRecord] [keyUnlock, keyUnlock] true = .panic ∧
    insertSignatures hc toyHashes (Hex.encode twoIns) [fairRecord, zeroRecord] [keyUnlock, keyUnlock] true = .panic := by
  have h : (match insertSignatures hc toyHashes (Hex.encode twoIns) [fairRecord, fairRecord] [keyUnlock, keyUnlock] true with
      | .ok x => !x.isEmpty
      | _ => false) = true := by decide +kernel
  cases hx : insertSignatures hc toyHashes (Hex.encode twoIns) [fairRecord, fairRecord] [keyUnlock, keyUnlock] true with
  | err => rw [hx] at h; simp at h
  | panic => rw [hx] at h; simp at h
  | ok x =>
    rw [hx] at h
    have hne : x ≠ [] := by rintro rfl; simp at h
    exact ⟨x, hne, rfl, C141_insert_few_violated hc (by simp) toyHashes _ _ _ true x hx hne 1 (by decide) (by decide),
      C141_insert_zero_violated hc (by simp) toyHashes _ _ _ true x hx hne 1 (by decide) zeroRecord rfl
        (Or.inr ⟨_, _, _, rfl, rfl, rfl, by simp, by simp, Or.inl (by decide +kernel)⟩)⟩

/-- The good records meet the hypotheses of `C141_insert_partial`. -/
example (segwitOn : Bool) : Btc.insertSignatures toyHashes (Hex.encode twoIns) [fairRecord, fairRecord] [keyUnlock, keyUnlock] segwitOn = .panic ↔
    segwitOn = true ∧ ∃ b, HexText (Hex.encode twoIns) b ∧ CutWitness 2 b := by
  refine (C141_insert_partial toyHashes (Hex.encode twoIns) [fairRecord, fairRecord] [keyUnlock, keyUnlock] segwitOn (by simp) ?_ ?_ ?_).1
  · intro h hh; simp at hh; subst hh; simp [fairRecord]
  · intro h hh n sig hn hs _
    simp at hh; subst hh
    simp only [fairRecord, Option.some.injEq] at hn
    subst hn
    simp only [Option.some.injEq] at hs
    subst hs
    constructor <;> decide +kernel
  · intro h hh m hm; simp at hh; subst hh; simp [fairRecord] at hm

/-- Unlocking data for a P2PKH output are not for a witness program. -/
example : ¬ ((∃ kh : Bytes, kh.length = 20 ∧ HexText keyUnlock.lockScript (witnessV0Script kh)) ∧ keyUnlock.redeemScript = [] ∧ keyUnlock.sigType = 0x41 ∧ keyUnlock.amount ≠ 0) := by
  rintro ⟨_, _, h, _⟩
  simp [keyUnlock] at h

end Verif
