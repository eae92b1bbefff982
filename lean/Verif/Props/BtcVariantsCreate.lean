import Verif.Lemmas.BtcVariantsCreate
import Verif.Props.BtcVariantsSign
import Mathlib.Data.Nat.Digits.Lemmas

/-! Properties C89, C90 and C91: the transactions created by the packages derived from `btcTransaction`. -/

namespace Verif
open Verif.Spec Verif.Btc Verif.BtcVariants

namespace BtcVariants

theorem outBch_iff {H : Hashes} {P : AddressPrefix} {p2sh : Bool} (v : Vout) (l : List TxOut) :
    outBch H P p2sh v = .ok l ↔ ∃ o : TxOut, l = [o] ∧ (o.amount = leBytes 8 v.amount.toNat ∧ PaysBase58 H P p2sh v.address [] o.lockScript) := by
  unfold outBch
  constructor
  · intro h
    obtain ⟨s, h1, h⟩ := Res.bind_eq_ok.mp h
    simp only [Res.ok.injEq] at h
    exact ⟨_, h.symm, rfl, base58Script_iff.mp h1⟩
  · rintro ⟨⟨a, s⟩, rfl, rfl, h⟩
    rw [base58Script_iff.mpr h, Res.bind_ok]

theorem outFall_iff {H : Hashes} {P : AddressPrefix} (v : Vout) (hb : P.bech32.isPrefixOf v.address = false) (l : List TxOut) :
    outFall H P v = .ok l ↔ ∃ o : TxOut, l = [o] ∧ (o.amount = leBytes 8 v.amount.toNat ∧ PaysBase58 H P false v.address [] o.lockScript) := by
  unfold outFall
  rw [bech32Outs_none hb, Res.bind_ok]
  constructor
  · intro h
    obtain ⟨s, h1, h⟩ := Res.bind_eq_ok.mp h
    simp only [Res.ok.injEq, List.nil_append] at h
    exact ⟨_, h.symm, rfl, base58Script_iff.mp h1⟩
  · rintro ⟨⟨a, s⟩, rfl, rfl, h⟩
    rw [base58Script_iff.mpr h, Res.bind_ok]
    rfl

theorem outZen_iff {H : Hashes} {P : AddressPrefix} {hash : Bytes} {height : UInt64} (v : Vout) (hb : P.bech32.isPrefixOf v.address = false)
    (l : List TxOut) :
    outZen H P hash height v = .ok l ↔ ∃ o : TxOut, l = [o] ∧ (o.amount = leBytes 8 v.amount.toNat ∧
      PaysBase58 H P false v.address (blockTail hash height) o.lockScript) := by
  unfold outZen
  rw [bech32Outs_none hb, Res.bind_ok]
  constructor
  · intro h
    obtain ⟨s, h1, h⟩ := Res.bind_eq_ok.mp h
    simp only [Res.ok.injEq, List.nil_append] at h
    exact ⟨_, h.symm, rfl, base58Script_iff.mp h1⟩
  · rintro ⟨⟨a, s⟩, rfl, rfl, h⟩
    rw [base58Script_iff.mpr h, Res.bind_ok]
    rfl

/-- Creation, for a package whose outputs follow `R`. -/
theorem create_iff {version : Nat} (hv : version < 2 ^ 32) {α : Type} {R : α → TxOut → Prop} {f : α → Res (List TxOut)} {vs : List α} {vins : List Vin}
    {lt : UInt32} {r : Bool} {text : Bytes} (hi : vins.length < 253) (ho : vs.length < 253)
    (hf : ∀ x ∈ vs, ∀ l, f x = .ok l ↔ ∃ o, l = [o] ∧ R x o) (hne : vs ≠ [])
    (hR : ∀ x ∈ vs, ∀ o, R x o → o.amount.length = 8 ∧ o.lockScript ≠ [] ∧ o.lockScript.length < 253) :
    createWith version vins (appendAll f vs) lt r = .ok text ↔ vins ≠ [] ∧ ∃ os t, List.Forall₂ R vs os ∧ IsRequest version vins lt r t ∧
      t.outs = os.map (fun o => ⟨leNat o.amount, o.lockScript⟩) ∧ text = Hex.encode t.ser := by
  rw [createWith_iff hv hi]
  · simp only [appendAll_iff hf]
  · intro os hos
    rw [appendAll_iff hf] at hos
    have hl := hos.length_eq
    refine ⟨?_, by omega, ?_⟩
    · intro h; rw [h] at hl; exact hne (List.length_eq_zero_iff.mp hl)
    · intro o hom
      obtain ⟨x, hx⟩ := mem_of_zip_right hl.symm hom
      exact hR x (List.of_mem_zip hx).1 o ((List.forall₂_iff_zip.mp hos).2 hx)

/-- From outputs of the model to outputs of the specification. -/
theorem outs_iff {α : Type} {amount : α → UInt64} {S : α → Bytes → Prop} : ∀ {vs : List α} {outs : List RawOut},
    (∃ os : List TxOut, List.Forall₂ (fun v o => o.amount = leBytes 8 (amount v).toNat ∧ S v o.lockScript) vs os ∧
      outs = os.map (fun o => ⟨leNat o.amount, o.lockScript⟩)) ↔
    List.Forall₂ (fun v o => o.value = (amount v).toNat ∧ S v o.script) vs outs
  | vs, outs => by
    constructor
    · rintro ⟨os, h, rfl⟩
      rw [List.forall₂_map_right_iff]
      refine h.imp ?_
      rintro v o ⟨h1, h2⟩
      refine ⟨?_, h2⟩
      simp only [h1]
      exact leNat_leBytes_of_lt (by have := (amount v).toNat_lt; simpa using this)
    · intro h
      refine ⟨outs.map (fun o => ⟨leBytes 8 o.value, o.script⟩), ?_, ?_⟩
      · rw [List.forall₂_map_right_iff]
        exact h.imp (fun v o ⟨h1, h2⟩ => ⟨by simp only [h1], h2⟩)
      · rw [List.map_map]
        conv_lhs => rw [← List.map_id outs]
        apply List.map_congr_left
        intro o ho
        obtain ⟨v, hv⟩ := mem_of_zip_right h.length_eq.symm ho
        obtain ⟨h1, _⟩ := (List.forall₂_iff_zip.mp h).2 hv
        simp only [id, Function.comp]
        rw [leNat_leBytes_of_lt (by rw [h1]; have := (amount v).toNat_lt; simpa using this)]

theorem paying_ok {H : Hashes} {P : AddressPrefix} {p2sh : Bool} {a : Bytes} {n : Nat} {o : TxOut} {tail : Bytes} (ht : tail.length < 228)
    (h : o.amount = leBytes 8 n ∧ PaysBase58 H P p2sh a tail o.lockScript) :
    o.amount.length = 8 ∧ o.lockScript ≠ [] ∧ o.lockScript.length < 253 := by
  have := PaysBase58.length h.2
  refine ⟨by rw [h.1]; simp, ?_, by omega⟩
  intro hn
  rw [hn] at this
  simp at this

end BtcVariants

/-! ### C89: transfers -/

/-- C89, Bitcoin Cash and Bitcoin SV (up to 252 inputs and outputs): `CreateEmptyRawTransaction` succeeds exactly if there are inputs and
outputs, all transaction ids are hex texts of 32 bytes and all addresses are Base58Check texts under one of the network's version prefixes; and then the
text is the hex text of the serialisation of the version 1 transaction that spends these outputs and pays these amounts to the P2PKH or P2SH
scripts of these addresses, in this order. -/
theorem C89_bch_partial (H : Hashes) (P : AddressPrefix) (vins : List Vin) (vouts : List Vout) (lockTime : UInt32) (replaceable : Bool)
    (text : Bytes) (hi : vins.length < 253) (ho : vouts.length < 253) :
    createBch H vins vouts lockTime replaceable P = .ok text ↔ vins ≠ [] ∧ vouts ≠ [] ∧ ∃ t, IsRequest 1 vins lockTime replaceable t ∧
      List.Forall₂ (fun v o => o.value = v.amount.toNat ∧ PaysBase58 H P true v.address [] o.script) vouts t.outs ∧
      text = Hex.encode t.ser := by
  unfold createBch outs
  by_cases hne : vouts = []
  · rw [if_pos hne]
    constructor
    · intro h
      unfold createWith at h
      obtain ⟨_, _, h⟩ := Res.bind_eq_ok.mp h
      simp at h
    · rintro ⟨_, h, _⟩; exact absurd hne h
  rw [if_neg hne, create_iff (by decide) hi ho (fun x _ l => outBch_iff x l) hne (fun x _ o h => paying_ok (by simp) h)]
  constructor
  · rintro ⟨h1, os, t, h2, h3, h4, h5⟩
    exact ⟨h1, hne, t, h3, outs_iff.mp ⟨os, h2, h4⟩, h5⟩
  · rintro ⟨h1, _, t, h3, h4, h5⟩
    obtain ⟨os, h6, h7⟩ := outs_iff.mpr h4
    exact ⟨h1, os, t, h6, h3, h7, h5⟩

/-- C89, HC (version 2) and CXC (version 1): the same, for addresses that do not start with the network's bech32 prefix; the third version
prefix is not used. -/
theorem C89_hc_cxc_partial (H : Hashes) (P : AddressPrefix) (vins : List Vin) (vouts : List Vout) (lockTime : UInt32) (replaceable : Bool)
    (text : Bytes) (hi : vins.length < 253) (ho : vouts.length < 253) (hb : ∀ v ∈ vouts, P.bech32.isPrefixOf v.address = false) :
    (createHc H vins vouts lockTime replaceable P = .ok text ↔ vins ≠ [] ∧ vouts ≠ [] ∧ ∃ t, IsRequest 2 vins lockTime replaceable t ∧
      List.Forall₂ (fun v o => o.value = v.amount.toNat ∧ PaysBase58 H P false v.address [] o.script) vouts t.outs ∧
      text = Hex.encode t.ser) ∧
    (createCxc H vins vouts lockTime replaceable P = .ok text ↔ vins ≠ [] ∧ vouts ≠ [] ∧ ∃ t, IsRequest 1 vins lockTime replaceable t ∧
      List.Forall₂ (fun v o => o.value = v.amount.toNat ∧ PaysBase58 H P false v.address [] o.script) vouts t.outs ∧
      text = Hex.encode t.ser) := by
  have key : ∀ version, version < 2 ^ 32 → (createWith version vins (outs (outFall H P) vouts) lockTime replaceable = .ok text ↔
      vins ≠ [] ∧ vouts ≠ [] ∧ ∃ t, IsRequest version vins lockTime replaceable t ∧
      List.Forall₂ (fun v o => o.value = v.amount.toNat ∧ PaysBase58 H P false v.address [] o.script) vouts t.outs ∧
      text = Hex.encode t.ser) := by
    intro version hv
    unfold outs
    by_cases hne : vouts = []
    · rw [if_pos hne]
      constructor
      · intro h
        unfold createWith at h
        obtain ⟨_, _, h⟩ := Res.bind_eq_ok.mp h
        simp at h
      · rintro ⟨_, h, _⟩; exact absurd hne h
    rw [if_neg hne, create_iff hv hi ho (fun x hx l => outFall_iff x (hb x hx) l) hne (fun x _ o h => paying_ok (by simp) h)]
    constructor
    · rintro ⟨h1, os, t, h2, h3, h4, h5⟩
      exact ⟨h1, hne, t, h3, outs_iff.mp ⟨os, h2, h4⟩, h5⟩
    · rintro ⟨h1, _, t, h3, h4, h5⟩
      obtain ⟨os, h6, h7⟩ := outs_iff.mpr h4
      exact ⟨h1, os, t, h6, h3, h7, h5⟩
  exact ⟨key 2 (by decide), key 1 (by decide)⟩

namespace BtcVariants

theorem appendAll_mem {α β : Type} {f : α → Res (List β)} {x : α} (hx : ∀ l, f x ≠ .ok l) : ∀ (xs : List α), x ∈ xs → ∀ ys, appendAll f xs ≠ .ok ys
  | [], h, _ => by simp at h
  | y :: xs, h, ys => by
    intro he
    rw [appendAll] at he
    obtain ⟨a, h1, he⟩ := Res.bind_eq_ok.mp he
    obtain ⟨b, h2, _⟩ := Res.bind_eq_ok.mp he
    rcases List.mem_cons.mp h with rfl | h
    · exact hx _ h1
    · exact appendAll_mem hx xs h _ h2

theorem createWith_outs {version : Nat} {vins : List Vin} {txOuts : Res (List TxOut)} {lt : UInt32} {r : Bool} {text : Bytes}
    (h : createWith version vins txOuts lt r = .ok text) : ∃ os, txOuts = .ok os := by
  unfold createWith at h
  obtain ⟨_, _, h⟩ := Res.bind_eq_ok.mp h
  obtain ⟨os, h1, _⟩ := Res.bind_eq_ok.mp h
  exact ⟨os, h1⟩

theorem base58Script_bad {H : Hashes} {P : AddressPrefix} {p2sh : Bool} {tail addr : Bytes} (hc : ∃ c ∈ addr, c ∉ Btc.alphabet) :
    base58Script H P p2sh tail addr = .err := by
  have hdec : Btc.decodeCheck H addr = .err := by
    unfold Btc.decodeCheck
    rw [(C02_base58_decode_total Btc.alphabet ⟨by decide +kernel, by decide +kernel⟩ addr).2 hc]
  unfold base58Script
  rw [hdec]

theorem outFall_bad {H : Hashes} {P : AddressPrefix} {v : Vout} (hc : ∃ c ∈ v.address, c ∉ Btc.alphabet) (l : List TxOut) :
    outFall H P v ≠ .ok l := by
  intro h
  unfold outFall at h
  obtain ⟨_, _, h⟩ := Res.bind_eq_ok.mp h
  obtain ⟨s, h1, _⟩ := Res.bind_eq_ok.mp h
  rw [base58Script_bad hc] at h1
  cases h1

end BtcVariants

/-- C89 is false of Bitcoin Cash: an address with a character that Base58 does not use, in particular every cashaddr text with its `bitcoincash:`,
is not accepted as a recipient; but such a text is what the package itself reports as the address of a P2PKH output (second part). -/
theorem C89_cashaddr_violated (H : Hashes) (P : AddressPrefix) (vins : List Vin) (vouts : List Vout) (lockTime : UInt32) (replaceable : Bool) :
    (∀ v ∈ vouts, (∃ c ∈ v.address, c ∉ Btc.alphabet) → ∀ text, createBch H vins vouts lockTime replaceable P ≠ .ok text) ∧
    (∀ hash lock redeem st th, bch.newTxHash H hash lock redeem .p2pkh st P = .ok th → ∃ a, th.normal = some a ∧ 0x3a ∈ a.address) := by
  constructor
  · intro v hv hc text h
    obtain ⟨os, h1⟩ := createWith_outs h
    unfold outs at h1
    split at h1
    · simp at h1
    refine appendAll_mem (x := v) ?_ vouts hv os h1
    intro l hl
    unfold outBch at hl
    rw [base58Script_bad hc] at hl
    cases hl
  · intro hash lock redeem st th h
    have h : newTxHashBch bchAddress H hash lock redeem .p2pkh st P = .ok th := h
    unfold newTxHashBch at h
    simp only at h
    obtain ⟨k, h1, h⟩ := Res.bind_eq_ok.mp h
    obtain ⟨a, h2, h⟩ := Res.bind_eq_ok.mp h
    simp only [Res.ok.injEq] at h
    rw [← h]
    refine ⟨_, rfl, ?_⟩
    unfold bchAddress Addr.addressEncode at h2
    have e1 : Addr.BCH_mainnetAddressCash.encodeType = asc "base32PolyMod" := rfl
    rw [if_neg (by rw [e1]; decide), if_neg (by rw [e1]; decide)] at h2
    simp only at h2
    rw [if_pos e1] at h2
    unfold CashAddr.encode at h2
    obtain ⟨ext, _, h2⟩ := Res.bind_eq_ok.mp h2
    obtain ⟨cs, _, h2⟩ := Res.bind_eq_ok.mp h2
    simp only [Res.ok.injEq] at h2
    rw [← h2]
    simp

/-- C89 is false of CXC and HC: although both have code for bech32 addresses, one with a character that Base58 does not use (like `0` or `l`) is
never accepted as a recipient. -/
theorem C89_bech32_violated (H : Hashes) (P : AddressPrefix) (vins : List Vin) (vouts : List Vout) (lockTime : UInt32) (replaceable : Bool)
    (v : Vout) (hv : v ∈ vouts) (hc : ∃ c ∈ v.address, c ∉ Btc.alphabet) (text : Bytes) :
    createHc H vins vouts lockTime replaceable P ≠ .ok text ∧ createCxc H vins vouts lockTime replaceable P ≠ .ok text := by
  constructor <;>
  · intro h
    obtain ⟨os, h1⟩ := createWith_outs h
    unfold outs at h1
    split at h1
    · simp at h1
    exact appendAll_mem (outFall_bad hc) vouts hv os h1

namespace BtcVariants

/-- Base58Check texts with HC's version bytes start with `Hs`. -/
theorem hs_prefix {H : Hashes} {h addr : Bytes} (hl : h.length = 20) (ha : IsBase58Check H Btc.alphabet [0x09, 0x7f] h addr) :
    ∃ r, addr = 0x48 :: 0x73 :: r := by
  unfold IsBase58Check IsBase58 base58Digits at ha
  have hck : ((H.hash .doubleSha256 ([0x09, 0x7f] ++ h)).take 4).length = 4 := by rw [List.length_take, H.size]; rfl
  generalize (H.hash .doubleSha256 ([0x09, 0x7f] ++ h)).take 4 = ck at ha hck
  have hz : leadingZeros ([0x09, 0x7f] ++ h ++ ck) = 0 := by simp [leadingZeros]
  rw [hz, List.replicate_zero, List.nil_append] at ha
  have hn : beNat ([0x09, 0x7f] ++ h ++ ck) = 0x097f * 256 ^ 24 + beNat (h ++ ck) := by
    rw [List.append_assoc, beNat_append]
    have : (h ++ ck).length = 24 := by simp [hl, hck]
    rw [this]
    rfl
  have hb : beNat (h ++ ck) < 256 ^ 24 := by
    have := beNat_lt (h ++ ck)
    rwa [show (h ++ ck).length = 24 by simp [hl, hck]] at this
  rw [hn] at ha
  generalize beNat (h ++ ck) = x at ha hb
  generalize hN : 0x097f * 256 ^ 24 + x = n at ha
  have hlo : 978 * 58 ^ 33 ≤ n := by rw [← hN]; norm_num at hb ⊢; omega
  have hhi : n < 979 * 58 ^ 33 := by rw [← hN]; norm_num at hb ⊢; omega
  have hlen : (Nat.digits 58 n).length = 35 := by
    have h1 : n < 58 ^ 35 := lt_of_lt_of_le hhi (by norm_num)
    have h2 : ¬ n < 58 ^ 34 := by
      have : 58 ^ 34 ≤ 978 * 58 ^ 33 := by norm_num
      omega
    rw [← Nat.digits_length_le_iff (by norm_num)] at h1 h2
    omega
  have hdiv : n / 58 ^ 33 = 978 := by
    rw [Nat.div_eq_iff (by norm_num)]
    constructor
    · omega
    · omega
  have hd33 : (Nat.digits 58 n)[33]? = some 50 := by
    have := Nat.getD_digits n 33 (b := 58) (by norm_num)
    rw [hdiv] at this
    rw [List.getD_eq_getElem?_getD] at this
    have hx : (Nat.digits 58 n)[33]? = some ((Nat.digits 58 n)[33]'(by omega)) := List.getElem?_eq_getElem _
    rw [hx] at this ⊢
    simpa using this
  have hd34 : (Nat.digits 58 n)[34]? = some 16 := by
    have := Nat.getD_digits n 34 (b := 58) (by norm_num)
    rw [show (58 : Nat) ^ 34 = 58 ^ 33 * 58 by norm_num, ← Nat.div_div_eq_div_mul, hdiv] at this
    rw [List.getD_eq_getElem?_getD] at this
    have hx : (Nat.digits 58 n)[34]? = some ((Nat.digits 58 n)[34]'(by omega)) := List.getElem?_eq_getElem _
    rw [hx] at this ⊢
    simpa using this
  generalize Nat.digits 58 n = D at ha hlen hd33 hd34
  have e0 : (addr.map some)[0]? = some (some 0x48) := by
    rw [ha, List.getElem?_map, List.getElem?_reverse (by omega), hlen]
    simp only [show 35 - 1 - 0 = 34 from rfl, hd34, Option.map_some]
    rfl
  have e1 : (addr.map some)[1]? = some (some 0x73) := by
    rw [ha, List.getElem?_map, List.getElem?_reverse (by omega), hlen]
    simp only [show 35 - 1 - 1 = 33 from rfl, hd33, Option.map_some]
    rfl
  match addr, e0, e1 with
  | a :: b :: r, e0, e1 =>
    simp at e0 e1
    exact ⟨r, by rw [e0, e1]⟩

end BtcVariants

/-- C89 is false of HC on its main network, for every recipient: the P2PKH addresses of the network all start with `Hs`, which is what the
package takes for the bech32 prefix; mixed case is not bech32, so that creation fails. -/
theorem C89_hc_mainnet_violated (H : Hashes) (vins : List Vin) (vouts : List Vout) (lockTime : UInt32) (replaceable : Bool)
    (v : Vout) (hv : v ∈ vouts) (h : Bytes) (hl : h.length = 20) (ha : IsBase58Check H Btc.alphabet hcMainnet.p2pkh h v.address) (text : Bytes) :
    createHc H vins vouts lockTime replaceable hcMainnet ≠ .ok text := by
  intro hc
  obtain ⟨os, h1⟩ := createWith_outs hc
  unfold outs at h1
  split at h1
  · simp at h1
  refine appendAll_mem (x := v) ?_ vouts hv os h1
  intro l hl2
  obtain ⟨r, hr⟩ := hs_prefix hl ha
  unfold outFall bech32Outs at hl2
  have hp : hcMainnet.bech32.isPrefixOf v.address = true := by rw [hr]; rfl
  rw [if_pos hp, bech32_mixed hr (by decide) (by decide)] at hl2
  cases hl2

-- the hypotheses of the theorems on C89 can be met
set_option maxRecDepth 4000 in
example : (createBch toyHashes [demoVin] [⟨asc "1TYPjCiGbKiwP6r12cdkmVjySbQs46iav", 5⟩] 0 false btcMainnet).isOk = true := by decide +kernel
set_option maxRecDepth 4000 in
example : (createCxc toyHashes [demoVin] [⟨asc "1TYPjCiGbKiwP6r12cdkmVjySbQs46iav", 5⟩] 0 false btcMainnet).isOk = true := by decide +kernel
example : bch.newTxHash toyHashes [] (p2pkhScript (List.replicate 20 5)) [] .p2pkh 0x41 btcMainnet ≠ .err := by decide +kernel
example (h : Bytes) : ∃ addr, IsBase58Check toyHashes Btc.alphabet hcMainnet.p2pkh h addr := by
  obtain ⟨t, h1, _, _⟩ := C01_base58_roundtrip _ alphabet_ok (hcMainnet.p2pkh ++ h ++ (toyHashes.hash .doubleSha256 (hcMainnet.p2pkh ++ h)).take 4)
  exact ⟨t, (Addr.encode_iff alphabet_ok _ _).mp h1⟩

/-! ### C90: the block reference of Horizen outputs -/

namespace BtcVariants

/-- The height as written: lowest byte first, no zero at the top. -/
theorem minimal_le (n : Nat) (hn : n < 2 ^ 64) :
    let h := ((beBytes 8 n).dropWhile (· == 0)).reverse
    leNat h = n ∧ h.length ≤ 8 ∧ ∀ x, h.getLast? = some x → x ≠ 0 := by
  have key : ∀ b : Bytes, beNat (b.dropWhile (· == 0)) = beNat b ∧ (b.dropWhile (· == 0)).length ≤ b.length ∧
      ∀ x, (b.dropWhile (· == 0)).head? = some x → x ≠ 0 := by
    intro b
    induction b with
    | nil => simp
    | cons a b ih =>
      by_cases h : a = 0
      · subst h
        obtain ⟨h1, h2, h3⟩ := ih
        simp only [List.dropWhile_cons, beq_self_eq_true, if_true, beNat_cons, List.length_cons]
        refine ⟨by rw [h1]; simp, by omega, h3⟩
      · rw [List.dropWhile_cons, if_neg (by simpa using h)]
        refine ⟨rfl, Nat.le_refl _, ?_⟩
        intro x hx
        simp at hx
        rw [← hx]; exact h
  obtain ⟨h1, h2, h3⟩ := key (beBytes 8 n)
  refine ⟨?_, by simpa using h2, ?_⟩
  · have h4 := beNat_beBytes_of_lt (k := 8) (n := n) (by simpa using hn)
    rw [h4] at h1
    exact h1
  · intro x hx
    rw [List.getLast?_reverse] at hx
    exact h3 x hx

theorem scriptNum_snoc (b : Bytes) (top : UInt8) : scriptNum (b ++ [top]) =
    if top.toNat < 0x80 then (leNat (b ++ [top]) : Int) else -((leNat (b ++ [top]) : Int) - 0x80 * 256 ^ b.length) := by
  unfold scriptNum
  simp

/-- The number read back from the minimal form is the height exactly if the top bit is not in use. -/
theorem scriptNum_minimal (n : Nat) (hn : n < 2 ^ 64) :
    scriptNum (((beBytes 8 n).dropWhile (· == 0)).reverse) = n ↔ n = 0 ∨ ∃ k, 256 ^ k ≤ n ∧ n < 128 * 256 ^ k := by
  obtain ⟨h1, h2, h3⟩ := minimal_le n hn
  generalize ((beBytes 8 n).dropWhile (· == 0)).reverse = h at h1 h2 h3
  rcases List.eq_nil_or_concat' h with rfl | ⟨b, top, rfl⟩
  · simp at h1
    subst h1
    simp [scriptNum]
  · have ht : top ≠ 0 := h3 top (by simp)
    have ht' : 1 ≤ top.toNat := by
      rcases Nat.eq_zero_or_pos top.toNat with h | h
      · exact absurd (UInt8.toNat_inj.mp (by simpa using h)) ht
      · exact h
    rw [scriptNum_snoc, h1]
    have hv : n = leNat b + 256 ^ b.length * top.toNat := by
      rw [← h1, leNat_append]
      simp [leNat]
    have hb := leNat_lt b
    have hpos : 0 < 256 ^ b.length := Nat.pow_pos (by omega)
    have hge : 256 ^ b.length ≤ n := by
      rw [hv]
      calc 256 ^ b.length = 256 ^ b.length * 1 := by omega
        _ ≤ 256 ^ b.length * top.toNat := Nat.mul_le_mul_left _ ht'
        _ ≤ _ := by omega
    by_cases hc : top.toNat < 0x80
    · rw [if_pos hc]
      refine ⟨fun _ => Or.inr ⟨b.length, hge, ?_⟩, fun _ => rfl⟩
      rw [hv]
      calc leNat b + 256 ^ b.length * top.toNat < 256 ^ b.length + 256 ^ b.length * top.toNat := by omega
        _ = 256 ^ b.length * (top.toNat + 1) := by ring
        _ ≤ 256 ^ b.length * 128 := Nat.mul_le_mul_left _ (by omega)
        _ = _ := by ring
    · rw [if_neg hc]
      have hbig : 128 * 256 ^ b.length ≤ n := by
        rw [hv]
        calc 128 * 256 ^ b.length = 256 ^ b.length * 128 := by ring
          _ ≤ 256 ^ b.length * top.toNat := Nat.mul_le_mul_left _ (by omega)
          _ ≤ _ := by omega
      constructor
      · intro he
        have h5 : (128 * 256 ^ b.length : Int) ≤ n := by exact_mod_cast hbig
        have h6 : (0 : Int) < 256 ^ b.length := by exact_mod_cast hpos
        exfalso
        have h7 : ((n : Int) - 128 * 256 ^ b.length) ≥ 0 := by omega
        generalize (256 : Int) ^ b.length = q at *
        omega
      · rintro (h0 | ⟨k, hk1, hk2⟩)
        · rw [h0] at hge; omega
        · exfalso
          have hup : n < 256 ^ (b.length + 1) := by
            have := leNat_lt (b ++ [top])
            rw [h1] at this
            simpa using this
          have hk3 : k < b.length + 1 := by
            by_contra hcon
            have : 256 ^ (b.length + 1) ≤ 256 ^ k := Nat.pow_le_pow_right (by omega) (by omega)
            omega
          have hk4 : 256 ^ k ≤ 256 ^ b.length := Nat.pow_le_pow_right (by omega) (by omega)
          omega

theorem readPush_cons {d r : Bytes} (hd : d.length ≤ 75) : readPush (UInt8.ofNat d.length :: (d ++ r)) = some (d, r) := by
  have hl : (UInt8.ofNat d.length).toNat = d.length := by rw [UInt8.toNat_ofNat']; omega
  unfold readPush
  simp only [hl]
  rw [if_pos ⟨hd, by simp⟩, List.take_left, List.drop_left]

theorem blockTail_iff (hash : Bytes) (hl : hash.length = 32) (height : UInt64) :
    (∃ h', IsBlockCheck (blockTail hash height) h' (height.toNat : Int)) ↔
      height.toNat = 0 ∨ ∃ k, 256 ^ k ≤ height.toNat ∧ height.toNat < 128 * 256 ^ k := by
  rw [← scriptNum_minimal _ height.toNat_lt]
  obtain ⟨h1, h2, h3⟩ := minimal_le _ height.toNat_lt
  unfold blockTail
  simp only
  generalize ((beBytes 8 height.toNat).dropWhile (· == 0)).reverse = h at h1 h2 h3
  have e1 : readPush (0x20 :: (hash ++ UInt8.ofNat h.length :: (h ++ [0xb4]))) = some (hash, UInt8.ofNat h.length :: (h ++ [0xb4])) := by
    have := readPush_cons (d := hash) (r := UInt8.ofNat h.length :: (h ++ [0xb4])) (by omega)
    rw [hl] at this
    exact this
  have e2 : readPush (UInt8.ofNat h.length :: (h ++ [0xb4])) = some (h, [0xb4]) := readPush_cons (by omega)
  constructor
  · rintro ⟨h', r, n, a1, a2, a3⟩
    rw [e1] at a1
    simp only [Option.some.injEq, Prod.mk.injEq] at a1
    rw [← a1.2, e2] at a2
    simp only [Option.some.injEq, Prod.mk.injEq] at a2
    rw [a2.1]; exact a3
  · intro h4
    exact ⟨hash, _, h, e1, e2, h4⟩

theorem blockTail_check {hash : Bytes} (hl : hash.length = 32) {height : UInt64} {h' : Bytes} {n : Int}
    (h : IsBlockCheck (blockTail hash height) h' n) : h' = hash := by
  obtain ⟨r, m, a1, _, _⟩ := h
  unfold blockTail at a1
  simp only at a1
  have := readPush_cons (d := hash) (r := UInt8.ofNat ((beBytes 8 height.toNat).dropWhile (· == 0)).reverse.length ::
    (((beBytes 8 height.toNat).dropWhile (· == 0)).reverse ++ [0xb4])) (by omega)
  rw [hl] at this
  rw [show (0x20 : UInt8) = UInt8.ofNat 32 from rfl, this] at a1
  simp only [Option.some.injEq, Prod.mk.injEq] at a1
  exact a1.1.symm

theorem blockTail_length (hash : Bytes) (height : UInt64) : (blockTail hash height).length ≤ hash.length + 11 := by
  obtain ⟨_, h2, _⟩ := minimal_le _ height.toNat_lt
  unfold blockTail
  simp only [List.length_cons, List.length_append, List.length_nil]
  omega

/-- Every created Horizen transaction. -/
theorem createZen_inv {H : Hashes} {P : AddressPrefix} {vins : List Vin} {vouts : List Vout} {lockTime : UInt32} {replaceable : Bool}
    {blockHash hash : Bytes} {height : UInt64} {text : Bytes} (hd : Hex.decode blockHash = .ok hash) (hl : hash.length ≤ 200)
    (hi : vins.length < 253) (ho : vouts.length < 253) (hb : ∀ v ∈ vouts, P.bech32.isPrefixOf v.address = false) :
    createZen H vins vouts lockTime replaceable P blockHash height = .ok text ↔ vins ≠ [] ∧ vouts ≠ [] ∧
      ∃ t, IsRequest 1 vins lockTime replaceable t ∧
        List.Forall₂ (fun v o => o.value = v.amount.toNat ∧ PaysBase58 H P false v.address (blockTail hash.reverse height) o.script) vouts t.outs ∧
        text = Hex.encode t.ser := by
  have hrev : reverseHexToBytes blockHash = .ok hash.reverse := by
    unfold reverseHexToBytes
    have := Hex.decode_length _ _ hd
    rw [if_neg (by omega), hd]; rfl
  have htail : (blockTail hash.reverse height).length < 228 := by
    have := blockTail_length hash.reverse height
    simp at this; omega
  unfold createZen outsZen
  rw [hrev]
  simp only
  by_cases hne : vouts = []
  · rw [if_pos hne]
    constructor
    · intro h
      unfold createWith at h
      obtain ⟨_, _, h⟩ := Res.bind_eq_ok.mp h
      simp at h
    · rintro ⟨_, h, _⟩; exact absurd hne h
  rw [if_neg hne, create_iff (by decide) hi ho (fun x hx l => outZen_iff x (hb x hx) l) hne (fun x _ o h => paying_ok htail h)]
  constructor
  · rintro ⟨h1, os, t, h2, h3, h4, h5⟩
    exact ⟨h1, hne, t, h3, outs_iff.mp ⟨os, h2, h4⟩, h5⟩
  · rintro ⟨h1, _, t, h3, h4, h5⟩
    obtain ⟨os, h6, h7⟩ := outs_iff.mpr h4
    exact ⟨h1, os, t, h6, h3, h7, h5⟩

end BtcVariants

/-- C90: if the block hash is the hex text of 32 bytes and the highest byte of the height has its top bit clear, then `CreateEmptyRawTransaction`
of Horizen succeeds exactly if there are inputs and outputs, ids are hex texts of 32 bytes and addresses are Base58Check texts of the network; and then
the text is the serialisation of the version 1 transaction that pays each address by its P2PKH or P2SH script followed by the check that
the block of this hash is at this height. Addresses starting with the network's bech32 prefix (`bc`) are excluded. -/
theorem C90_block_reference_partial (H : Hashes) (P : AddressPrefix) (vins : List Vin) (vouts : List Vout) (lockTime : UInt32) (replaceable : Bool)
    (blockHash hash : Bytes) (height : UInt64) (text : Bytes) (hd : Hex.decode blockHash = .ok hash) (hl : hash.length = 32)
    (htop : height.toNat = 0 ∨ ∃ k, 256 ^ k ≤ height.toNat ∧ height.toNat < 128 * 256 ^ k)
    (hi : vins.length < 253) (ho : vouts.length < 253) (hb : ∀ v ∈ vouts, P.bech32.isPrefixOf v.address = false) :
    ∃ tail, IsBlockCheck tail hash.reverse height.toNat ∧
      (createZen H vins vouts lockTime replaceable P blockHash height = .ok text ↔ vins ≠ [] ∧ vouts ≠ [] ∧
        ∃ t, IsRequest 1 vins lockTime replaceable t ∧
          List.Forall₂ (fun v o => o.value = v.amount.toNat ∧ PaysBase58 H P false v.address tail o.script) vouts t.outs ∧
          text = Hex.encode t.ser) := by
  refine ⟨blockTail hash.reverse height, ?_, createZen_inv hd (by omega) hi ho hb⟩
  obtain ⟨h', h1⟩ := (blockTail_iff hash.reverse (by simpa using hl) height).mpr htop
  have h2 := blockTail_check (by simpa using hl) h1
  rw [h2] at h1
  exact h1

-- the hypotheses can be met, for the heights of the main network for instance
example : (1500000 : UInt64).toNat = 0 ∨ ∃ k, 256 ^ k ≤ (1500000 : UInt64).toNat ∧ (1500000 : UInt64).toNat < 128 * 256 ^ k :=
  Or.inr ⟨2, by decide, by decide⟩
set_option maxRecDepth 4000 in
example : (createZen toyHashes [demoVin] [⟨asc "1TYPjCiGbKiwP6r12cdkmVjySbQs46iav", 5⟩] 0 false btcMainnet (Hex.encode (List.replicate 32 8))
    1500000).isOk = true := by decide +kernel

/-- C90 is false for heights whose highest byte has its top bit set (128 to 255, 32768 to 65535, 8388608 to 16777215, ...): no output of any created
transaction refers to a block at that height, because the script number is negative or zero. -/
theorem C90_top_bit_violated (H : Hashes) (P : AddressPrefix) (vins : List Vin) (vouts : List Vout) (lockTime : UInt32) (replaceable : Bool)
    (blockHash hash : Bytes) (height : UInt64) (text : Bytes) (hd : Hex.decode blockHash = .ok hash) (hl : hash.length = 32)
    (k : Nat) (h1 : 128 * 256 ^ k ≤ height.toNat) (h2 : height.toNat < 256 ^ (k + 1))
    (hi : vins.length < 253) (ho : vouts.length < 253) (hb : ∀ v ∈ vouts, P.bech32.isPrefixOf v.address = false)
    (hc : createZen H vins vouts lockTime replaceable P blockHash height = .ok text) :
    ∃ t tail, IsRequest 1 vins lockTime replaceable t ∧ text = Hex.encode t.ser ∧ (∀ h', ¬ IsBlockCheck tail h' height.toNat) ∧
      List.Forall₂ (fun v o => o.value = v.amount.toNat ∧ PaysBase58 H P false v.address tail o.script) vouts t.outs := by
  obtain ⟨_, _, t, a1, a2, a3⟩ := (createZen_inv hd (by omega) hi ho hb).mp hc
  refine ⟨t, _, a1, a3, ?_, a2⟩
  intro h' hcheck
  have hpos : 0 < 256 ^ k := Nat.pow_pos (by omega)
  rcases (blockTail_iff hash.reverse (by simpa using hl) height).mp ⟨h', hcheck⟩ with h0 | ⟨j, j1, j2⟩
  · omega
  · have hj : j < k + 1 := by
      by_contra hcon
      have : 256 ^ (k + 1) ≤ 256 ^ j := Nat.pow_le_pow_right (by omega) (by omega)
      omega
    have : 256 ^ j ≤ 256 ^ k := Nat.pow_le_pow_right (by omega) (by omega)
    omega

example : 128 * 256 ^ 0 ≤ (200 : UInt64).toNat ∧ (200 : UInt64).toNat < 256 ^ (0 + 1) := by decide

/-- C90 is false for block hashes of another length: they are not rejected, and no output refers to that hash. -/
theorem C90_hash_length_violated (H : Hashes) (P : AddressPrefix) (vins : List Vin) (vouts : List Vout) (lockTime : UInt32) (replaceable : Bool)
    (blockHash hash : Bytes) (height : UInt64) (text : Bytes) (hd : Hex.decode blockHash = .ok hash) (hl : hash.length ≠ 32) (hl2 : hash.length ≤ 200)
    (hi : vins.length < 253) (ho : vouts.length < 253) (hb : ∀ v ∈ vouts, P.bech32.isPrefixOf v.address = false)
    (hc : createZen H vins vouts lockTime replaceable P blockHash height = .ok text) :
    ∃ t tail, IsRequest 1 vins lockTime replaceable t ∧ text = Hex.encode t.ser ∧ (∀ n, ¬ IsBlockCheck tail hash.reverse n) ∧
      List.Forall₂ (fun v o => o.value = v.amount.toNat ∧ PaysBase58 H P false v.address tail o.script) vouts t.outs := by
  obtain ⟨_, _, t, a1, a2, a3⟩ := (createZen_inv hd hl2 hi ho hb).mp hc
  refine ⟨t, _, a1, a3, ?_, a2⟩
  rintro n ⟨r, m, b1, _, _⟩
  unfold blockTail readPush at b1
  simp only at b1
  split at b1
  · rename_i hle
    simp only [Option.some.injEq, Prod.mk.injEq] at b1
    have := congrArg List.length b1.1
    rw [List.length_take] at this
    have h32 : (0x20 : UInt8).toNat = 32 := rfl
    rw [h32] at hle this
    rw [Nat.min_eq_left hle.2, List.length_reverse] at this
    exact hl this.symm
  · simp at b1

set_option maxRecDepth 4000 in
example : (createZen toyHashes [demoVin] [⟨asc "1TYPjCiGbKiwP6r12cdkmVjySbQs46iav", 5⟩] 0 false btcMainnet (Hex.encode (List.replicate 31 8))
    1500000).isOk = true := by decide +kernel

/-! ### C91: assets of CXC -/

namespace BtcVariants

/-- A tail is just appended. -/
theorem paysBase58_tail {H : Hashes} {P : AddressPrefix} {p : Bool} {a : Bytes} (tail s : Bytes) :
    PaysBase58 H P p a tail s ↔ ∃ x, PaysBase58 H P p a [] x ∧ s = x ++ tail := by
  unfold PaysBase58
  constructor
  · rintro ⟨v, h, h1, h2, ⟨h3, rfl⟩ | ⟨h3, h4, rfl⟩⟩
    · exact ⟨p2pkhScript h, ⟨v, h, h1, h2, .inl ⟨h3, by simp⟩⟩, rfl⟩
    · exact ⟨p2shScript h, ⟨v, h, h1, h2, .inr ⟨h3, h4, by simp⟩⟩, rfl⟩
  · rintro ⟨x, ⟨v, h, h1, h2, ⟨h3, rfl⟩ | ⟨h3, h4, rfl⟩⟩, rfl⟩
    · exact ⟨v, h, h1, h2, .inl ⟨h3, by simp⟩⟩
    · exact ⟨v, h, h1, h2, .inr ⟨h3, h4, by simp⟩⟩

theorem outAsset_iff {H : Hashes} {P : AddressPrefix} (t : AssetTransfer) (hb : P.bech32.isPrefixOf t.address = false) {id : Bytes}
    (hd : Hex.decode t.firstSellTxID = .ok id) (l : List TxOut) :
    outAsset H P t = .ok l ↔ ∃ o : TxOut, l = [o] ∧ (o.amount = leBytes 8 0 ∧
      PaysBase58 H P false t.address (assetTail (asc "spkq" ++ id.reverse ++ leBytes 8 t.amount.toNat)) o.lockScript) := by
  have hp : assetPayload t = .ok (asc "spkq" ++ id.reverse ++ leBytes 8 t.amount.toNat) := by
    unfold assetPayload reverseHexToBytes
    have := Hex.decode_length _ _ hd
    rw [if_neg (by omega), hd]; rfl
  have ho : ∀ s, assetOut t s = .ok ⟨leBytes 8 0, s ++ assetTail (asc "spkq" ++ id.reverse ++ leBytes 8 t.amount.toNat)⟩ := by
    intro s
    unfold assetOut
    rw [hp]; rfl
  unfold outAsset
  rw [bech32Outs_none hb, Res.bind_ok]
  unfold appendAll
  rw [Res.bind_ok]
  constructor
  · intro h
    obtain ⟨s, h1, h⟩ := Res.bind_eq_ok.mp h
    simp only [ho, Res.bind_ok, Res.ok.injEq, List.nil_append] at h
    exact ⟨_, h.symm, rfl, (paysBase58_tail _ _).mpr ⟨s, base58Script_iff.mp h1, rfl⟩⟩
  · rintro ⟨⟨a, s⟩, rfl, rfl, h⟩
    obtain ⟨x, h1, rfl⟩ := (paysBase58_tail _ _).mp h
    rw [base58Script_iff.mpr h1, Res.bind_ok, ho]
    rfl

theorem outAsset_id {H : Hashes} {P : AddressPrefix} {t : AssetTransfer} {l : List TxOut} (h : outAsset H P t = .ok l) :
    ∃ id, Hex.decode t.firstSellTxID = .ok id := by
  unfold outAsset at h
  obtain ⟨_, _, h⟩ := Res.bind_eq_ok.mp h
  obtain ⟨_, _, h⟩ := Res.bind_eq_ok.mp h
  obtain ⟨_, _, h⟩ := Res.bind_eq_ok.mp h
  obtain ⟨_, h1, _⟩ := Res.bind_eq_ok.mp h
  unfold assetOut at h1
  obtain ⟨p, h1, _⟩ := Res.bind_eq_ok.mp h1
  unfold assetPayload reverseHexToBytes at h1
  split at h1
  · rename_i id hid
    split at hid
    · simp at hid
    · obtain ⟨b, hb, _⟩ := Res.bind_eq_ok.mp hid
      exact ⟨b, hb⟩
  · simp at h1
  · simp at h1

/-- What one transfer of an asset is to become: an output of amount zero whose script is that of the address followed by a push of the asset
reference (the reverse of the bytes of the text) and the quantity. -/
def CarriesAsset (H : Hashes) (P : AddressPrefix) (t : AssetTransfer) (o : RawOut) : Prop :=
  o.value = 0 ∧ ∃ id tail, Hex.decode t.firstSellTxID = .ok id ∧ IsAssetTail tail id.reverse t.amount.toNat ∧
    PaysBase58 H P false t.address tail o.script

theorem assetTail_is {ref : Bytes} (hl : ref.length ≤ 63) (n : Nat) : IsAssetTail (assetTail (asc "spkq" ++ ref ++ leBytes 8 n)) ref n := by
  refine ⟨asc "spkq" ++ ref ++ leBytes 8 n, ?_, rfl⟩
  unfold assetTail
  apply readPush_cons
  simp only [List.length_append, leBytes_length]
  have : (asc "spkq").length = 4 := by decide
  omega

end BtcVariants

/-- C91: if the asset references are hex texts of at most 63 bytes and no address starts with the network's bech32 prefix, every text returned by
`CreateEmptyAssetRawTransaction` is the serialisation of the version 1 transaction with the given inputs whose outputs are the asset
transfers, in order, followed by the change. -/
theorem C91_assets_partial (H : Hashes) (P : AddressPrefix) (vins : List Vin) (tos : List AssetTransfer) (change : Vout) (lockTime : UInt32)
    (replaceable : Bool) (text : Bytes) (hi : vins.length < 253) (ho : tos.length < 252)
    (hb : ∀ t ∈ tos, P.bech32.isPrefixOf t.address = false) (hbc : P.bech32.isPrefixOf change.address = false)
    (hid : ∀ t ∈ tos, ∀ id, Hex.decode t.firstSellTxID = .ok id → id.length ≤ 63)
    (hc : createAsset H vins tos change lockTime replaceable P = .ok text) :
    ∃ (t : RawTx) (os : List RawOut) (c : RawOut), IsRequest 1 vins lockTime replaceable t ∧ t.outs = os ++ [c] ∧
      List.Forall₂ (CarriesAsset H P) tos os ∧ c.value = change.amount.toNat ∧ PaysBase58 H P false change.address [] c.script ∧
      text = Hex.encode t.ser := by
  unfold createAsset at hc
  obtain ⟨all, hall⟩ := createWith_outs hc
  have hsplit := hall
  unfold outsAsset at hsplit
  obtain ⟨as, h1, hsplit⟩ := Res.bind_eq_ok.mp hsplit
  obtain ⟨cs, h2, hsplit⟩ := Res.bind_eq_ok.mp hsplit
  simp only [Res.ok.injEq] at hsplit
  have h4 : List.Forall₂ (fun (v : Vout) (o : TxOut) => o.amount = leBytes 8 v.amount.toNat ∧ PaysBase58 H P false v.address [] o.lockScript)
      [change] cs := by
    unfold outs at h2
    rw [if_neg (by simp)] at h2
    exact (appendAll_iff (fun x hx l => by
      simp only [List.mem_singleton] at hx
      subst hx
      exact outFall_iff x hbc l)).mp h2
  have h3 : List.Forall₂ (fun (t : AssetTransfer) (o : TxOut) => ∃ id, Hex.decode t.firstSellTxID = .ok id ∧ id.length ≤ 63 ∧
      o.amount = leBytes 8 0 ∧ PaysBase58 H P false t.address (assetTail (asc "spkq" ++ id.reverse ++ leBytes 8 t.amount.toNat)) o.lockScript) tos as := by
    have hmem : ∀ x ∈ tos, ∃ l, outAsset H P x = .ok l := by
      intro x hx
      by_contra hcon
      exact appendAll_mem (x := x) (fun l hl => hcon ⟨l, hl⟩) tos hx as h1
    refine (appendAll_iff (fun x hx l => ?_)).mp h1
    obtain ⟨l0, hl0⟩ := hmem x hx
    obtain ⟨id, hdid⟩ := outAsset_id hl0
    rw [outAsset_iff x (hb x hx) hdid]
    constructor
    · rintro ⟨o, rfl, hr⟩
      exact ⟨o, rfl, id, hdid, hid x hx id hdid, hr⟩
    · rintro ⟨o, rfl, id', hd', _, hr⟩
      rw [hdid] at hd'
      simp only [Res.ok.injEq] at hd'
      subst hd'
      exact ⟨o, rfl, hr⟩
  have htl : ∀ id : Bytes, id.length ≤ 63 → ∀ n, (assetTail (asc "spkq" ++ id.reverse ++ leBytes 8 n)).length < 228 := by
    intro id hl n
    unfold assetTail
    have : (asc "spkq").length = 4 := by decide
    simp only [List.length_cons, List.length_append, List.length_reverse, leBytes_length, List.length_nil]
    omega
  rw [createWith_iff (by decide) hi] at hc
  · obtain ⟨_, os, t, g1, g2, g3, g4⟩ := hc
    rw [hall] at g1
    simp only [Res.ok.injEq] at g1
    rw [← g1, ← hsplit, List.map_append] at g3
    cases h4 with
    | cons hch hnil =>
      cases hnil
      rename_i o
      refine ⟨t, as.map (fun o => ⟨leNat o.amount, o.lockScript⟩), ⟨leNat o.amount, o.lockScript⟩, g2, g3, ?_, ?_, hch.2, g4⟩
      · rw [List.forall₂_map_right_iff]
        refine h3.imp ?_
        rintro x o ⟨id, k1, k2, k3, k4⟩
        exact ⟨by simp only [k3]; decide, id, _, k1, assetTail_is (by simpa using k2) _, k4⟩
      · simp only [hch.1]
        exact leNat_leBytes_of_lt (by have := change.amount.toNat_lt; simpa using this)
  · intro os hos
    rw [hall] at hos
    simp only [Res.ok.injEq] at hos
    rw [← hos, ← hsplit]
    have l1 := h3.length_eq
    have l2 := h4.length_eq
    simp only [List.length_cons, List.length_nil] at l2
    refine ⟨?_, by simp only [List.length_append]; omega, ?_⟩
    · intro hn
      have := congrArg List.length hn
      rw [List.length_append, List.length_nil] at this
      omega
    · intro o hom
      rcases List.mem_append.mp hom with hom | hom
      · obtain ⟨x, hx⟩ := mem_of_zip_right l1.symm hom
        obtain ⟨id, k1, k2, k3⟩ := (List.forall₂_iff_zip.mp h3).2 hx
        exact paying_ok (htl id k2 _) k3
      · obtain ⟨x, hx⟩ := mem_of_zip_right (l := [change]) (by simpa using l2.symm) hom
        exact paying_ok (by simp) ((List.forall₂_iff_zip.mp h4).2 hx)

set_option maxRecDepth 4000 in
example : (createAsset toyHashes [demoVin] [⟨Hex.encode (List.replicate 16 3), asc "1TYPjCiGbKiwP6r12cdkmVjySbQs46iav", 7⟩]
    ⟨asc "1TYPjCiGbKiwP6r12cdkmVjySbQs46iav", 5⟩ 0 false btcMainnet).isOk = true := by decide +kernel

/-- C91 is false for longer references: from 64 bytes on the opcode in front of the payload is not a push of that many bytes. -/
theorem C91_long_reference_violated (H : Hashes) (P : AddressPrefix) (t : AssetTransfer) (l : List TxOut) (id : Bytes)
    (hb : P.bech32.isPrefixOf t.address = false) (hd : Hex.decode t.firstSellTxID = .ok id) (h1 : 64 ≤ id.length) (h2 : id.length ≤ 200)
    (hc : outAsset H P t = .ok l) : ∃ o tail, l = [o] ∧ PaysBase58 H P false t.address tail o.lockScript ∧
      ∀ ref n, ¬ IsAssetTail tail ref n := by
  obtain ⟨o, rfl, _, ho⟩ := (outAsset_iff t hb hd l).mp hc
  refine ⟨o, _, rfl, ho, ?_⟩
  rintro ref n ⟨d, k1, _⟩
  unfold assetTail readPush at k1
  simp only at k1
  have h4 : (asc "spkq").length = 4 := by decide
  rw [if_neg] at k1
  · simp at k1
  · rintro ⟨k2, _⟩
    rw [UInt8.toNat_ofNat'] at k2
    simp only [List.length_append, List.length_reverse, leBytes_length, h4] at k2
    omega

set_option maxRecDepth 4000 in
example : (outAsset toyHashes btcMainnet ⟨Hex.encode (List.replicate 64 3), asc "1TYPjCiGbKiwP6r12cdkmVjySbQs46iav", 7⟩).isOk = true := by
  decide +kernel

/-- C91, spending: a P2PKH asset output created from a reference of `n` bytes can be spent with this package (its locking script is recognised) if
and only if `n` is 16. -/
theorem C91_limit_spendable (h id : Bytes) (quantity : Nat) (hl : h.length = 20) :
    (∃ s r ty, cxc.check (Hex.encode (p2pkhScript h ++ assetTail (asc "spkq" ++ id ++ leBytes 8 quantity))) [] = .ok (s, r, ty)) ↔
      id.length = 16 := by
  have h4 : (asc "spkq").length = 4 := by decide
  have htl : (assetTail (asc "spkq" ++ id ++ leBytes 8 quantity)).length = id.length + 14 := by
    unfold assetTail
    simp only [List.length_cons, List.length_append, leBytes_length, h4, List.length_nil]
    omega
  constructor
  · rintro ⟨s, r, ty, hc⟩
    have hc : checkCxc (Hex.encode (p2pkhScript h ++ assetTail (asc "spkq" ++ id ++ leBytes 8 quantity))) [] = .ok (s, r, ty) := hc
    unfold checkCxc at hc
    rw [Hex.decode_encode] at hc
    simp only at hc
    have e : (p2pkhScript h ++ assetTail (asc "spkq" ++ id ++ leBytes 8 quantity)).length = 39 + id.length := by
      rw [List.length_append, htl]
      simp [p2pkhScript, hl]; omega
    have g0 : (p2pkhScript h ++ assetTail (asc "spkq" ++ id ++ leBytes 8 quantity))[0]? = some 0x76 := rfl
    rw [e, g0] at hc
    by_contra hne
    rw [if_neg (by omega), if_neg (by simp), if_neg (by simp)] at hc
    cases hc
  · intro h16
    exact ⟨_, _, _, checkCxc_p2pkh (Hex.decode_encode _) hl (Or.inr (by omega))⟩

end Verif
