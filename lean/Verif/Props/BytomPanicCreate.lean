import Verif.Props.BytomPanicSign

/-! C143: creating a Bytom transaction. -/

namespace Verif
open Spec.BytomWire Spec.BytomCut Spec.Crash Spec.Eip55

namespace Bytom

theorem uvarint_iff (x : UInt64) : (uint64ToUvarint x.toNat = .panic ↔ 2 ^ 56 ≤ x.toNat) ∧ ((∃ b, uint64ToUvarint x.toNat = .ok b) ↔ x.toNat < 2 ^ 56) ∧
    uint64ToUvarint x.toNat ≠ .err := by
  rcases uint64ToUvarint_cases x with ⟨h, e⟩ | ⟨h, e⟩
  · rw [e]; simp; omega
  · rw [e]; simp; omega

theorem check_iff (test : Bool) (a : Bytes) : (slice a 0 2 = .panic ↔ a.length < 2) ∧ (slice a 0 2 = .ok (hrpOf test) ↔ hrpOf test <+: a) ∧ slice a 0 2 ≠ .err := by
  obtain ⟨_, hl, _⟩ := hrpOf_ok test
  by_cases h : 2 ≤ a.length
  · rw [slice_ok (by omega) h]
    refine ⟨by simp; omega, ?_, by simp⟩
    rw [Res.ok.injEq, List.drop_zero, List.prefix_iff_eq_take, hl]
    exact eq_comm
  · have : slice a 0 2 = .panic := by unfold slice; rw [if_neg (by omega)]
    rw [this]
    refine ⟨by simp; omega, ?_, by simp⟩
    refine iff_of_false (by simp) ?_
    intro hp
    have := hp.length_le
    omega

theorem checkAddresses_iff (test : Bool) : ∀ vouts : List Vout,
    (checkAddresses test vouts = .panic ↔ FirstBad (fun w => hrpOf test <+: w.address) (fun w => w.address.length < 2) vouts) ∧
    (checkAddresses test vouts = .ok () ↔ ∀ w ∈ vouts, hrpOf test <+: w.address)
  | [] => by
    refine ⟨iff_of_false (by simp [checkAddresses]) ?_, by simp [checkAddresses]⟩
    rintro ⟨b, x, a, h, _⟩
    simp at h
  | v :: vs => by
    obtain ⟨c1, c2, c3⟩ := check_iff test v.address
    obtain ⟨i1, i2⟩ := checkAddresses_iff test vs
    unfold checkAddresses
    rw [CombinePanic.firstBad_cons, List.forall_mem_cons, ← c1, ← c2, ← i1, ← i2]
    cases hs : slice v.address 0 2 with
    | err => exact absurd hs c3
    | panic => simp
    | ok p =>
      rw [Res.bind_ok]
      by_cases hp : p = hrpOf test
      · rw [if_neg (by simp [hp])]; simp [hp]
      · rw [if_pos hp]; simp [hp]

theorem newTxIn_iff (v : Vin) : (newTxIn v = .panic ↔ LargeIn v) ∧ ((∃ i, newTxIn v = .ok i) ↔ GoodIn v) := by
  obtain ⟨p1, p2, p3⟩ := uvarint_iff v.sourcePosition
  obtain ⟨a1, a2, a3⟩ := uvarint_iff v.amount
  unfold newTxIn LargeIn GoodIn
  simp only [← Eip.decode_iff, ← p1, ← p2, ← a1, ← a2]
  cases h1 : Hex.decode v.sourceID with
  | panic => exact absurd h1 (Hex.decode_ne_panic _)
  | err => simp
  | ok s =>
    cases h2 : uint64ToUvarint v.sourcePosition.toNat with
    | err => exact absurd h2 p3
    | panic => simp
    | ok p =>
      cases h3 : Hex.decode v.assetID with
      | panic => exact absurd h3 (Hex.decode_ne_panic _)
      | err => simp
      | ok a =>
        cases h4 : uint64ToUvarint v.amount.toNat with
        | err => exact absurd h4 a3
        | panic => simp
        | ok m =>
          cases h5 : Hex.decode v.controlProgram with
          | panic => exact absurd h5 (Hex.decode_ne_panic _)
          | err => simp
          | ok c => simp

theorem outProgram_ne (a : Bytes) : outProgram a ≠ .panic := by
  unfold outProgram
  apply CreatePanic.bind_ne (decodeSegWit_ne _)
  rintro ⟨v, p⟩
  dsimp only
  split
  · simp
  · split <;> simp

theorem newTxOut_iff (v : Vout) : (newTxOut v = .panic ↔ (∃ c, outProgram v.address = .ok c) ∧ 2 ^ 56 ≤ v.amount.toNat) ∧
    ((∃ o, newTxOut v = .ok o) ↔ (∃ c, outProgram v.address = .ok c) ∧ v.amount.toNat < 2 ^ 56) := by
  obtain ⟨a1, a2, a3⟩ := uvarint_iff v.amount
  unfold newTxOut
  rw [← a1, ← a2]
  cases h : outProgram v.address with
  | panic => exact absurd h (outProgram_ne _)
  | err => simp
  | ok c =>
    cases h4 : uint64ToUvarint v.amount.toNat with
    | err => exact absurd h4 a3
    | panic => simp
    | ok m => simp

/-- An input for the payments below. -/
def plainVin : Vin := ⟨Hex.encode (List.replicate 32 0), 0, Hex.encode (List.replicate 32 0), 0, Hex.encode (List.replicate 22 0)⟩

theorem plainVin_ok : ∃ i, newTxIn plainVin = .ok i ∧ ∃ b, i.toBytes = .ok b := by
  refine ⟨{ sourceID := List.replicate 32 0, sourcePosition := [0], assetID := List.replicate 32 0, amount := [0], controlProgram := List.replicate 22 0 }, ?_, ?_⟩
  · unfold newTxIn plainVin
    simp only [Hex.decode_encode, Res.bind_ok]
    rfl
  · exact ⟨_, rfl⟩

theorem outProgram_ne_nil {a c : Bytes} (h : outProgram a = .ok c) : c ≠ [] := by
  unfold outProgram at h
  obtain ⟨⟨v, p⟩, _, h⟩ := Res.bind_eq_ok.mp h
  simp only at h
  split_ifs at h
  cases h
  simp

/-- The receivers that can be paid. -/
theorem payable_iff (test : Bool) (w : Vout) : (∃ vins text, createEmpty vins [w] 0 test = .ok text) ↔
    hrpOf test <+: w.address ∧ (∃ c, outProgram w.address = .ok c) ∧ w.amount.toNat < 2 ^ 56 := by
  have hck := (checkAddresses_iff test [w]).2
  constructor
  · rintro ⟨vins, text, h⟩
    unfold createEmpty at h
    obtain ⟨u, h1, h⟩ := Res.bind_eq_ok.mp h
    obtain ⟨t, h2, h⟩ := Res.bind_eq_ok.mp h
    refine ⟨hck.mp h1 w (by simp), ?_⟩
    rw [← (newTxOut_iff w).2]
    unfold newEmptyTransaction at h2
    split at h2
    · cases h2
    · obtain ⟨is, _, h2⟩ := Res.bind_eq_ok.mp h2
      rw [if_neg (by simp)] at h2
      obtain ⟨os, h3, h2⟩ := Res.bind_eq_ok.mp h2
      unfold newTxOuts at h3
      obtain ⟨o, h4, _⟩ := Res.bind_eq_ok.mp h3
      exact ⟨o, h4⟩
  · rintro ⟨h1, ⟨c, hc⟩, h3⟩
    obtain ⟨i, hi, b, hb⟩ := plainVin_ok
    refine ⟨[plainVin], ?_⟩
    have hm := uint64ToUvarint_ok h3
    have hot : ∃ b, (TxOut.mk btmAsset c (Spec.Bytom.varint w.amount.toNat)).toBytes = .ok b := by
      unfold TxOut.toBytes
      have hp := varint_pos w.amount.toNat
      rw [if_neg (by simp only; omega), if_neg (by simp [btmAsset]), if_neg (by simpa using outProgram_ne_nil hc)]
      exact ⟨_, rfl⟩
    obtain ⟨ob, hob⟩ := hot
    have h01 : uint64ToUvarint 1 = .ok [1] := by decide +kernel
    have h00 : uint64ToUvarint (0 : UInt64).toNat = .ok [0] := by decide +kernel
    unfold createEmpty
    rw [hck.mpr (by simpa using h1), Res.bind_ok]
    unfold newEmptyTransaction
    rw [if_neg (by simp)]
    have e1 : newTxIns [plainVin] = .ok [i] := by simp [newTxIns, hi]
    have e2 : newTxOuts [w] = .ok [⟨btmAsset, c, Spec.Bytom.varint w.amount.toNat⟩] := by simp [newTxOuts, newTxOut, hc, hm]
    rw [e1, Res.bind_ok, if_neg (by simp), e2, Res.bind_ok, h01, Res.bind_ok, h00, Res.bind_ok, Res.bind_ok]
    unfold Transaction.toBytes
    rw [if_neg (by simp), if_neg (by simp), if_neg (by simp), if_neg (by simp)]
    simp only [concatBytes, hb, hob, Res.bind_ok]
    exact ⟨_, rfl⟩

theorem newTxIns_iff (vins : List Vin) : (newTxIns vins = .panic ↔ FirstBad GoodIn LargeIn vins) ∧ ((∃ is, newTxIns vins = .ok is) ↔ ∀ v ∈ vins, GoodIn v) := by
  constructor
  · rw [CreatePanic.loop_panic (L := newTxIns) (f := newTxIn) (g := fun a b => a :: b) (c := []) rfl (fun _ _ => rfl)]
    unfold FirstBad
    simp only [newTxIn_iff]
  · rw [CreatePanic.loop_ok (L := newTxIns) (f := newTxIn) (g := fun a b => a :: b) (c := []) rfl (fun _ _ => rfl)]
    simp only [newTxIn_iff]

theorem newTxOuts_iff (vs : List Vout) : (newTxOuts vs = .panic ↔ FirstBad (fun w => ∃ o, newTxOut w = .ok o) (fun w => newTxOut w = .panic) vs) ∧
    ((∃ os, newTxOuts vs = .ok os) ↔ ∀ v ∈ vs, ∃ o, newTxOut v = .ok o) :=
  ⟨CreatePanic.loop_panic (L := newTxOuts) (f := newTxOut) (g := fun a b => a :: b) (c := []) rfl (fun _ _ => rfl) vs,
   CreatePanic.loop_ok (L := newTxOuts) (f := newTxOut) (g := fun a b => a :: b) (c := []) rfl (fun _ _ => rfl) vs⟩

end Bytom

/-- The receiver can be paid on its own. -/
def BytomPayable (test : Bool) (w : Bytom.Vout) : Prop := ∃ vins text, Bytom.createEmpty vins [w] 0 test = .ok text

/-- C143, creating: `CreateEmptyRawTransaction` crashes exactly
- if a receiver's text has fewer than two characters and all before it begin like addresses of the network, or
- if all begin so, there are inputs, and a number is 2^56 or more: a position or amount of an input (behind well-formed inputs), the amount paid to an
  address (behind receivers that can be paid), or the time range (all inputs being well-formed, all receivers payable). -/
theorem C143_create (vins : List Bytom.Vin) (vouts : List Bytom.Vout) (time : UInt64) (test : Bool) :
    Bytom.createEmpty vins vouts time test = .panic ↔
      FirstBad (fun w => Spec.Bytom.hrp test <+: w.address) (fun w => w.address.length < 2) vouts ∨
      ((∀ w ∈ vouts, Spec.Bytom.hrp test <+: w.address) ∧ vins ≠ [] ∧
        (FirstBad GoodIn LargeIn vins ∨
          ((∀ v ∈ vins, GoodIn v) ∧
            (FirstBad (BytomPayable test) (fun w => BytomPayable test ⟨w.address, 0⟩ ∧ 2 ^ 56 ≤ w.amount.toNat) vouts ∨
              (vouts ≠ [] ∧ (∀ w ∈ vouts, BytomPayable test w) ∧ 2 ^ 56 ≤ time.toNat))))) := by
  obtain ⟨_, _, he⟩ := Bytom.hrpOf_ok test
  obtain ⟨k1, k2⟩ := Bytom.checkAddresses_iff test vouts
  obtain ⟨i1, i2⟩ := Bytom.newTxIns_iff vins
  obtain ⟨o1, o2⟩ := Bytom.newTxOuts_iff vouts
  obtain ⟨t1, t2, t3⟩ := Bytom.uvarint_iff time
  rw [← he, ← k1, ← k2, ← i1, ← i2]
  unfold Bytom.createEmpty
  cases hc : Bytom.checkAddresses test vouts with
  | panic => simp
  | err => simp
  | ok u =>
    have hpre := k2.mp hc
    -- with the right beginning, payable means that the output can be made
    have hpay : ∀ w ∈ vouts, (BytomPayable test w ↔ ∃ o, Bytom.newTxOut w = .ok o) := by
      intro w hw
      unfold BytomPayable
      rw [Bytom.payable_iff, (Bytom.newTxOut_iff w).2]
      simp [hpre w hw]
    have hlarge : ∀ w ∈ vouts, ((BytomPayable test ⟨w.address, 0⟩ ∧ 2 ^ 56 ≤ w.amount.toNat) ↔ Bytom.newTxOut w = .panic) := by
      intro w hw
      unfold BytomPayable
      rw [Bytom.payable_iff, (Bytom.newTxOut_iff w).1]
      simp [hpre w hw]
    have hfb : FirstBad (BytomPayable test) (fun w => BytomPayable test ⟨w.address, 0⟩ ∧ 2 ^ 56 ≤ w.amount.toNat) vouts ↔ Bytom.newTxOuts vouts = .panic := by
      rw [o1]
      unfold FirstBad
      constructor
      · rintro ⟨b, x, a, h, h1, h2⟩
        exact ⟨b, x, a, h, fun w hw => (hpay w (by rw [h]; simp [hw])).mp (h1 w hw), (hlarge x (by rw [h]; simp)).mp h2⟩
      · rintro ⟨b, x, a, h, h1, h2⟩
        exact ⟨b, x, a, h, fun w hw => (hpay w (by rw [h]; simp [hw])).mpr (h1 w hw), (hlarge x (by rw [h]; simp)).mpr h2⟩
    have hall : (∀ w ∈ vouts, BytomPayable test w) ↔ ∃ os, Bytom.newTxOuts vouts = .ok os := by
      rw [o2]
      exact ⟨fun h w hw => (hpay w hw).mp (h w hw), fun h w hw => (hpay w hw).mpr (h w hw)⟩
    rw [hfb, hall, ← t1]
    have hu : u = () := rfl
    rw [Res.bind_ok]
    have hpost : ∀ t : Bytom.Transaction, (t.toBytes >>= fun b => Res.ok (Hex.encode b)) ≠ .panic :=
      fun t => CreatePanic.bind_ne (Bytom.toBytes_ne t) (by simp)
    rw [DecPanic.bind_panic _ _ hpost]
    unfold Bytom.newEmptyTransaction
    by_cases hv : vins = []
    · rw [if_pos (by simp [hv])]
      simp [hv]
    rw [if_neg (by simpa using hv)]
    have h01 : Bytom.uint64ToUvarint 1 = .ok [1] := by decide +kernel
    cases hi : Bytom.newTxIns vins with
    | panic => simp [hv]
    | err => simp
    | ok is =>
      rw [Res.bind_ok]
      by_cases ho : vouts = []
      · rw [if_pos (by simp [ho])]
        subst ho
        simp [Bytom.newTxOuts]
      · rw [if_neg (by simpa using ho)]
        cases hos : Bytom.newTxOuts vouts with
        | panic => simp [hv]
        | err => simp
        | ok os =>
          rw [Res.bind_ok, h01, Res.bind_ok, DecPanic.bind_panic _ _ (by simp)]
          simp [hv, ho]

/-- Texts that end in the time range are cut off. -/
theorem Bytom.cut_time (hs : Bytes) (h : Endless hs) : CutTx ([7, 1] ++ hs) := ⟨[], hs, 1, by simp, by decide, by simp, .inl h⟩

example : Endless [0x80] := ⟨by simp, by simp⟩

/-- A request with an address and a time range of 2^60. -/
example : ∃ vins vouts, Bytom.createEmpty vins vouts 1152921504606846976 false = .panic ∧ vins ≠ [] ∧ ∀ w ∈ vouts, Spec.Bytom.hrp false <+: w.address := by
  obtain ⟨vins, vouts, h1, h2, h3⟩ := Bytom.exRequest
  have hv : vins ≠ [] := by rintro rfl; cases h1
  have hw : vouts ≠ [] := by rintro rfl; cases h2
  have hp := C107_limit_panics vins vouts 1152921504606846976 false { Bytom.exTx with time := 1152921504606846976 } ⟨h1, h2, by decide⟩ hv hw (.inr (.inr (by norm_num)))
  refine ⟨vins, vouts, hp, hv, ?_⟩
  rcases (C143_create _ _ _ _).mp hp with h | h
  · obtain ⟨b, x, a, e, _, hx⟩ := h
    exfalso
    have hc := C107_layout vins vouts 0 false _ ⟨h1, h2, h3⟩ Bytom.exTx_fits
    have := (C143_create vins vouts 0 false).mpr (.inl ⟨b, x, a, e, ‹_›, hx⟩)
    rw [hc] at this
    cases this
  · exact h.1

/-- C143 is false of texts cut off in the time range: every function that reads one crashes. -/
theorem C143_cut_violated (H : Hashes) (verify : Bytes → Bytes → Bytes → Bool) (hs : Bytes) (h : Endless hs) :
    Bytom.decodeRaw ([7, 1] ++ hs) = .panic ∧
    (∀ test, Bytom.hashForSig H (Hex.encode ([7, 1] ++ hs)) test = .panic) ∧
    (∀ ths, Bytom.insertSignatures H (Hex.encode ([7, 1] ++ hs)) ths = .panic) ∧
    Bytom.verifyRaw H verify (Hex.encode ([7, 1] ++ hs)) = .panic := by
  have hc := Bytom.cut_time hs h
  have ht : HexText (Hex.encode ([7, 1] ++ hs)) ([7, 1] ++ hs) := (Eip.decode_iff _ _).mp (Hex.decode_encode _)
  exact ⟨(C143_read _).mpr hc, fun test => (C143_hashes H _ test).mpr ⟨_, ht, .inl hc⟩, fun ths => (C143_insert H _ ths).mpr ⟨_, ht, .inl hc⟩,
    (C143_verify H verify _).2.1 _ ht hc⟩

namespace Bytom

/-- A transaction with one input, for the given control program, and one output. -/
def oneInput (program : Bytes) : Transaction where
  version := [1]
  timeRange := [0]
  inputs := [{ sourceID := List.replicate 32 5, sourcePosition := [1], assetID := List.replicate 32 6, amount := [0x90, 0x4e], controlProgram := program }]
  outputs := [{ assetID := List.replicate 32 6, controlProgram := [2, 0, 1], amount := [4] }]

/-- Its text for a program of one byte. -/
def oneByteText (c : UInt8) : Bytes :=
  [7, 1, 0, 1] ++ [1, 72, 1, 70] ++ List.replicate 32 5 ++ List.replicate 32 6 ++ [0x90, 0x4e, 1, 1, 1, c, 1, 0, 1] ++
    [1, 37] ++ List.replicate 32 6 ++ [4, 1, 2, 0, 1, 0]

theorem oneByte_isTx (c : UInt8) : IsTx false (oneByteText c) (oneInput [c]) := by
  rw [← C120_language_partial]
  revert c
  apply Hex.u8_forall
  decide +kernel

end Bytom

/-- C143 is false of transactions with a control program of one byte, whichever it is: the text is read, but asking for its hashes crashes; so does
verifying it, and so does inserting a record without its data. -/
theorem C143_program_violated (H : Hashes) (verify : Bytes → Bytes → Bytes → Bool) (c : UInt8) (test : Bool) :
    Bytom.decodeRaw (Bytom.oneByteText c) = .ok (Bytom.oneInput [c]) ∧
    Bytom.hashForSig H (Hex.encode (Bytom.oneByteText c)) test = .panic ∧
    Bytom.verifyRaw H verify (Hex.encode (Bytom.oneByteText c)) = .panic ∧
    ∀ hash, Bytom.insertSignatures H (Hex.encode (Bytom.oneByteText c)) [{ hash := hash }] = .panic := by
  have ht := Bytom.oneByte_isTx c
  have hx : HexText (Hex.encode (Bytom.oneByteText c)) (Bytom.oneByteText c) := (Eip.decode_iff _ _).mp (Hex.decode_encode _)
  refine ⟨(C120_language_partial _ _).mpr ht, (C143_hashes H _ test).mpr ⟨_, hx, .inr ⟨_, ht, [], _, [], rfl, by simp, rfl⟩⟩,
    (C143_verify H verify _).2.2.2 _ _ hx ht ⟨_, rfl, by simp, rfl⟩, fun hash => (C143_insert H _ _).mpr ⟨_, hx, .inr ⟨_, ht, [], _, [], rfl, by simp, by simp, .inl ⟨rfl, rfl⟩⟩⟩⟩

/-- C143 is false of receivers: a text of fewer than two characters makes the creation crash, whatever the inputs are. -/
theorem C143_receiver_violated (vins : List Bytom.Vin) (address : Bytes) (h : address.length < 2) (amount time : UInt64) (more : List Bytom.Vout) (test : Bool) :
    Bytom.createEmpty vins (⟨address, amount⟩ :: more) time test = .panic :=
  (C143_create _ _ _ _).mpr (.inl ⟨[], _, more, rfl, by simp, h⟩)

example : ([0x62] : Bytes).length < 2 := by decide

end Verif
