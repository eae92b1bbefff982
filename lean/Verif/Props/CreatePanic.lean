import Verif.Spec.Crash
import Verif.Props.DecodePanic
import Verif.Props.Eip55
import Verif.Props.BtcTx
import Verif.Props.BtcVariantsCreate
import Verif.Props.Verge
import Verif.Props.HyperCash
import Verif.Props.Alien

/-! C140: which requests make the creation of a transaction crash. -/

namespace Verif
open Verif.Spec Verif.Spec.Crash Verif.Spec.Eip55 Verif.Addr

namespace CreatePanic

/-- A loop that stops at the first element that is not processed. -/
theorem loop_panic {α β γ : Type} {L : List α → Res γ} {f : α → Res β} {g : β → γ → γ} {c : γ} (h0 : L [] = .ok c)
    (hs : ∀ x xs, L (x :: xs) = (f x >>= fun a => L xs >>= fun b => .ok (g a b))) : ∀ xs,
    (L xs = .panic ↔ FirstBad (fun w => ∃ y, f w = .ok y) (fun w => f w = .panic) xs)
  | [] => by
    rw [h0]
    refine iff_of_false (by simp) ?_
    rintro ⟨b, x, a, h, _⟩
    simp at h
  | x :: xs => by
    rw [hs]
    cases hx : f x with
    | err =>
      refine iff_of_false (by simp) ?_
      rintro ⟨b, y, a, h, h1, h2⟩
      match b, h, h1 with
      | [], h, _ =>
        simp only [List.nil_append, List.cons.injEq] at h
        rw [← h.1, hx] at h2; cases h2
      | z :: b, h, h1 =>
        simp only [List.cons_append, List.cons.injEq] at h
        obtain ⟨y, hy⟩ := h1 z (by simp)
        rw [← h.1, hx] at hy; cases hy
    | panic => exact iff_of_true rfl ⟨[], x, xs, rfl, by simp, hx⟩
    | ok v =>
      rw [Res.bind_ok, DecPanic.bind_panic _ _ (by intro a; simp), loop_panic h0 hs xs]
      constructor
      · rintro ⟨b, y, a, h, h1, h2⟩
        refine ⟨x :: b, y, a, by rw [h]; rfl, ?_, h2⟩
        intro w hw
        rcases List.mem_cons.mp hw with rfl | hw
        · exact ⟨v, hx⟩
        · exact h1 w hw
      · rintro ⟨b, y, a, h, h1, h2⟩
        match b, h, h1 with
        | [], h, _ =>
          simp only [List.nil_append, List.cons.injEq] at h
          rw [← h.1, hx] at h2; cases h2
        | z :: b, h, h1 =>
          simp only [List.cons_append, List.cons.injEq] at h
          exact ⟨b, y, a, h.2, fun w hw => h1 w (by simp [hw]), h2⟩

/-- Inputs first, then the outputs one after the other, then the rest. -/
theorem create_panic {α β γ ι ρ : Type} {create : List α → Res ρ} {ins : Res ι} {L : List α → Res γ} {f : α → Res β} {g : β → γ → γ} {c : γ}
    {post : ι → γ → Res ρ} (hn : create [] ≠ .panic) (hins : ins ≠ .panic)
    (hc : ∀ vs, vs ≠ [] → create vs = (ins >>= fun i => L vs >>= fun o => post i o)) (h0 : L [] = .ok c)
    (hs : ∀ x xs, L (x :: xs) = (f x >>= fun a => L xs >>= fun b => .ok (g a b)))
    (hp : ∀ i os, ins = .ok i → post i os ≠ .panic)
    (hp1 : ∀ i w o, ins = .ok i → f w = .ok o → ∃ r, post i (g o c) = .ok r) (vs : List α) :
    create vs = .panic ↔ (∃ i, ins = .ok i) ∧ FirstBad (fun w => ∃ r, create [w] = .ok r) (fun w => f w = .panic) vs := by
  by_cases hv : vs = []
  · subst hv
    refine iff_of_false hn ?_
    rintro ⟨_, b, x, a, h, _⟩
    simp at h
  rw [hc vs hv]
  cases hi : ins with
  | err => simp
  | panic => exact absurd hi hins
  | ok i =>
    rw [Res.bind_ok, DecPanic.bind_panic _ _ (fun os => hp i os hi), loop_panic h0 hs]
    have hgood : ∀ w, (∃ y, f w = .ok y) ↔ ∃ r, create [w] = .ok r := by
      intro w
      rw [hc [w] (by simp), hi, Res.bind_ok, hs, h0]
      cases hw : f w with
      | err => simp
      | panic => simp
      | ok o =>
        simp only [Res.bind_ok, Res.ok.injEq, exists_eq', true_iff]
        exact hp1 i w o hi hw
    unfold FirstBad
    simp only [hgood, Res.ok.injEq, exists_eq', true_and]

theorem decode58_iff (t b : Bytes) : Base58.decode Btc.alphabet t = .ok b ↔ IsBase58 Btc.alphabet b t := by
  constructor
  · intro h
    exact (Addr.encode_iff Btc.alphabet_ok _ _).mp (C02_base58_canonical _ Btc.alphabet_ok _ _ h)
  · intro h
    obtain ⟨u, h1, h2, h3⟩ := C01_base58_roundtrip _ Btc.alphabet_ok b
    have := (Addr.encode_iff Btc.alphabet_ok _ _).mpr h
    rw [h1] at this
    rw [← Res.ok.inj this]; exact h3

theorem decode58_ne_panic (t : Bytes) : Base58.decode Btc.alphabet t ≠ .panic := by
  obtain ⟨h1, h2⟩ := C02_base58_decode_total Btc.alphabet Btc.alphabet_ok t
  by_cases h : ∀ c ∈ t, c ∈ Btc.alphabet
  · obtain ⟨b, hb⟩ := h1 h; rw [hb]; simp
  · simp only [not_forall] at h
    obtain ⟨c, hc, hn⟩ := h
    rw [h2 ⟨c, hc, hn⟩]; simp

/-- The checks of the decoders with a checksum. -/
theorem check_panic {ρ : Type} (digest : Bytes → Bytes) (hl : ∀ d, 4 ≤ (digest d).length) (need : Nat) (k : Bytes → Res ρ)
    (hk : ∀ ret : Bytes, 4 ≤ ret.length → (k ret = .panic ↔ ret.length < 4 + need)) (t : Bytes) :
    (Base58.decode Btc.alphabet t >>= fun ret =>
      if ret.length < 4 then .panic
      else if (digest (ret.take (ret.length - 4))).take 4 ≠ ret.drop (ret.length - 4) then .err
      else k ret) = .panic ↔ ShortBase58 Btc.alphabet digest need t := by
  unfold ShortBase58
  cases hd : Base58.decode Btc.alphabet t with
  | panic => exact absurd hd (decode58_ne_panic t)
  | err =>
    refine iff_of_false (by simp) ?_
    rintro ⟨b, h, _⟩
    rw [(decode58_iff t b).mpr h] at hd; cases hd
  | ok ret =>
    rw [Res.bind_ok]
    have huniq : ∀ b, IsBase58 Btc.alphabet b t ↔ b = ret := by
      intro b
      rw [← decode58_iff, hd]
      exact ⟨fun h => (Res.ok.inj h).symm, fun h => by rw [h]⟩
    simp only [huniq, exists_eq_left]
    by_cases h4 : ret.length < 4
    · rw [if_pos h4]; exact iff_of_true rfl (Or.inl h4)
    rw [if_neg h4]
    by_cases hc : (digest (ret.take (ret.length - 4))).take 4 = ret.drop (ret.length - 4)
    · rw [if_neg (not_not.mpr hc), hk ret (by omega)]
      simp only [h4, false_or]
      constructor
      · intro h
        refine ⟨ret.take (ret.length - 4), by rw [List.length_take]; omega, ?_⟩
        rw [hc, List.take_append_drop]
      · rintro ⟨d, h1, h2⟩
        have := congrArg List.length h2
        rw [List.length_append, List.length_take] at this
        omega
    · rw [if_pos hc]
      refine iff_of_false (by simp) ?_
      rintro (h | ⟨d, h1, h2⟩)
      · exact h4 h
      · apply hc
        have h3 := hl d
        have e : ret.length - 4 = d.length := by
          have := congrArg List.length h2
          rw [List.length_append, List.length_take] at this
          omega
        rw [e, h2, List.take_left, List.drop_left]

theorem btc_panic (H : Hashes) (t : Bytes) : Btc.decodeCheck H t = .panic ↔ ShortBase58 Btc.alphabet (H.hash .doubleSha256) 20 t := by
  rw [← check_panic (H.hash .doubleSha256) (fun d => by rw [H.size]; decide) 20
    (fun ret => if ret.length < 4 + 0x14 then .panic
      else .ok (ret.take (ret.length - 24), (ret.take (ret.length - 4)).drop (ret.length - 24))) (by
      intro ret _
      by_cases h : ret.length < 4 + 0x14
      · simp [h]
      · simp [h]) t]
  unfold Btc.decodeCheck
  cases Base58.decode Btc.alphabet t <;> rfl

theorem hc_panic (H : Hashes) (t : Bytes) : HyperCash.decodeCheck H t = .panic ↔
    ShortBase58 Btc.alphabet (fun d => H.hash .blake256 (H.hash .blake256 d)) 20 t := by
  rw [← check_panic (fun d => H.hash .blake256 (H.hash .blake256 d)) (fun d => by show 4 ≤ (H.hash .blake256 _).length; rw [H.size]; decide) 20
    (fun ret => if ret.length < 4 + 0x14 then .panic
      else .ok (ret.take (ret.length - 24), (ret.take (ret.length - 4)).drop (ret.length - 24))) (by
      intro ret _
      by_cases h : ret.length < 4 + 0x14
      · simp [h]
      · simp [h]) t]
  unfold HyperCash.decodeCheck
  cases Base58.decode Btc.alphabet t <;> rfl

theorem verge_panic (H : Hashes) (t : Bytes) : Verge.decodeCheck H t = .panic ↔
    ShortBase58 Btc.alphabet (H.hash .doubleSha256) 1 t := by
  rw [← check_panic (H.hash .doubleSha256) (fun d => by rw [H.size]; decide) 1
    (fun ret => do
      let p ← index ret 0
      let h ← slice ret 1 (ret.length - 4)
      .ok (p, h)) (by
      intro ret h4
      have : index ret 0 = .ok (ret[0]'(by omega)) := by
        unfold index; rw [List.getElem?_eq_getElem (by omega)]
      rw [this, Res.bind_ok, DecPanic.bind_panic _ _ (by intro a; simp)]
      unfold slice
      split
      · rename_i h; exact iff_of_false (by simp) (by omega)
      · rename_i h; exact iff_of_true rfl (by omega)) t]
  rfl

theorem bech32_panic (t : Bytes) : Bech32.decode t = .panic ↔ ShortBech32 t := by
  unfold ShortBech32
  rw [← C05_panic_bech32 toyHashes BTC_mainnetAddressBech32V0 rfl t, (bech32_unfold toyHashes rfl [] t).2,
    DecPanic.bind_panic _ _ (by intro x; split_ifs <;> simp)]

/-! ### Inputs -/

theorem reverse_iff (t b : Bytes) : Btc.reverseHexToBytes t = .ok b ↔ HexText t b.reverse := by
  unfold Btc.reverseHexToBytes
  rw [← Eip.decode_iff]
  cases h : Hex.decode t with
  | panic => exact absurd h (Hex.decode_ne_panic t)
  | err => split_ifs <;> simp
  | ok x =>
    have := Hex.decode_length _ _ h
    rw [if_neg (by omega)]
    simp only [Res.bind_ok, Res.ok.injEq]
    constructor
    · rintro rfl; simp
    · rintro rfl; simp

theorem reverse_ne_panic (t : Bytes) : Btc.reverseHexToBytes t ≠ .panic := by
  unfold Btc.reverseHexToBytes
  split_ifs
  · simp
  · cases h : Hex.decode t with
    | panic => exact absurd h (Hex.decode_ne_panic t)
    | err => simp
    | ok x => simp

theorem btcIn_iff (v : Btc.Vin) : (∃ i, Btc.newTxIn v = .ok i) ↔ ∃ id, HexText v.txid id ∧ id.length = 32 := by
  constructor
  · rintro ⟨i, h⟩
    obtain ⟨id, h1, h2, _⟩ := Btc.newTxIn_inv h
    exact ⟨id, (Eip.decode_iff _ _).mp h1, h2⟩
  · rintro ⟨id, h1, h2⟩
    exact ⟨_, BtcVariants.newTxIn_ok ((Eip.decode_iff _ _).mpr h1) h2⟩

theorem loop_ok {α β γ : Type} {L : List α → Res γ} {f : α → Res β} {g : β → γ → γ} {c : γ} (h0 : L [] = .ok c)
    (hs : ∀ x xs, L (x :: xs) = (f x >>= fun a => L xs >>= fun b => .ok (g a b))) : ∀ xs,
    ((∃ r, L xs = .ok r) ↔ ∀ w ∈ xs, ∃ y, f w = .ok y)
  | [] => by simp [h0]
  | x :: xs => by
    have ih := loop_ok h0 hs xs
    rw [hs, List.forall_mem_cons, ← ih]
    cases f x with
    | err => simp
    | panic => simp
    | ok v =>
      cases L xs with
      | err => simp
      | panic => simp
      | ok r => simp

theorem loop_ne_panic {α β γ : Type} {L : List α → Res γ} {f : α → Res β} {g : β → γ → γ} {c : γ} (h0 : L [] = .ok c)
    (hs : ∀ x xs, L (x :: xs) = (f x >>= fun a => L xs >>= fun b => .ok (g a b))) (hf : ∀ x, f x ≠ .panic) (xs : List α) : L xs ≠ .panic := by
  intro h
  obtain ⟨b, x, a, _, _, h3⟩ := (loop_panic h0 hs xs).mp h
  exact hf x h3

theorem btcIns_iff (vs : List Btc.Vin) : (∃ i, Btc.newTxIns vs = .ok i) ↔ vs ≠ [] ∧ ∀ v ∈ vs, ∃ id, HexText v.txid id ∧ id.length = 32 := by
  unfold Btc.newTxIns
  by_cases h : vs = []
  · simp [h]
  · rw [if_neg h, loop_ok (L := Btc.newTxInLoop) (f := Btc.newTxIn) rfl (fun _ _ => rfl)]
    simp only [btcIn_iff, ne_eq, h, not_false_eq_true, true_and]

theorem btcIns_ne_panic (vs : List Btc.Vin) : Btc.newTxIns vs ≠ .panic := by
  unfold Btc.newTxIns
  split_ifs
  · simp
  · refine loop_ne_panic (L := Btc.newTxInLoop) (f := Btc.newTxIn) rfl (fun _ _ => rfl) ?_ vs
    intro v
    unfold Btc.newTxIn
    cases h : Btc.reverseHexToBytes v.txid with
    | panic => exact absurd h (reverse_ne_panic _)
    | err => simp
    | ok x => simp only; split_ifs <;> simp

/-- The loop that writes down a list. -/
theorem concat_ok {α : Type} (f : α → Res Bytes) (l : List α) : (∃ b, Btc.concatAll f l = .ok b) ↔ ∀ x ∈ l, ∃ y, f x = .ok y :=
  loop_ok (L := Btc.concatAll f) rfl (fun _ _ => rfl) l

theorem concat_ne_panic {α : Type} (f : α → Res Bytes) (hf : ∀ x, f x ≠ .panic) (l : List α) : Btc.concatAll f l ≠ .panic :=
  loop_ne_panic (L := Btc.concatAll f) rfl (fun _ _ => rfl) hf l

theorem encodeTx_ne_panic (t : Btc.Tx) (hw : t.witness = false) : Btc.encodeTx false t ≠ .panic := by
  unfold Btc.encodeTx
  split_ifs
  · simp
  · rw [hw] at *; contradiction
  · have h1 : Btc.concatAll (Btc.encodeIn false) t.vins ≠ .panic := concat_ne_panic _ (by intro x; unfold Btc.encodeIn; split_ifs <;> simp) _
    have h2 : Btc.concatAll Btc.encodeOut t.vouts ≠ .panic := concat_ne_panic _ (by intro x; unfold Btc.encodeOut; split_ifs <;> simp) _
    cases h3 : Btc.concatAll (Btc.encodeIn false) t.vins with
    | panic => exact absurd h3 h1
    | err => simp
    | ok a =>
      cases h4 : Btc.concatAll Btc.encodeOut t.vouts with
      | panic => exact absurd h4 h2
      | err => simp
      | ok b => simp

/-- Inputs and at least one output are always written down. -/
theorem encodeTx_ok {vs : List Btc.Vin} {ins : List Btc.TxIn} (hi : Btc.newTxIns vs = .ok ins) (lt : UInt32) (r : Bool) (ver : Nat) (os : List Btc.TxOut)
    (hos : os ≠ [] ∧ ∀ o ∈ os, o.amount.length = 8 ∧ o.lockScript ≠ []) :
    ∃ b, Btc.encodeTx false ⟨leBytes 4 ver, ins.map (Btc.setSequence lt r), os, leBytes 4 lt.toNat, false⟩ = .ok b := by
  unfold Btc.newTxIns at hi
  split_ifs at hi with hne
  obtain ⟨hlen, hz⟩ := Btc.newTxInLoop_inv vs hi
  have hins : ins ≠ [] := by
    rintro rfl
    simp only [List.length_nil] at hlen
    exact hne (List.length_eq_zero_iff.mp hlen.symm)
  have hmem : ∀ i ∈ ins, i.txid.length = 32 ∧ i.vout.length = 4 := by
    intro i him
    obtain ⟨k, hk, rfl⟩ := List.getElem_of_mem him
    have : (vs[k]'(by omega), ins[k]) ∈ vs.zip ins := by
      rw [← List.getElem_zip (h := by simp; omega)]
      exact List.getElem_mem _
    obtain ⟨id, _, h2, h3⟩ := Btc.newTxIn_inv (hz _ this)
    simp only at h3
    rw [h3]
    simp [h2]
  unfold Btc.encodeTx
  rw [if_neg (by simp [hins, hos.1])]
  obtain ⟨a, ha⟩ := (concat_ok (Btc.encodeIn false) (ins.map (Btc.setSequence lt r))).mpr (by
    intro x hx
    obtain ⟨i, hi', rfl⟩ := List.mem_map.mp hx
    obtain ⟨k1, k2⟩ := hmem i hi'
    unfold Btc.encodeIn Btc.setSequence
    rw [if_neg (by
      simp only [k1, k2]
      split_ifs <;> simp)]
    exact ⟨_, rfl⟩)
  obtain ⟨b, hb⟩ := (concat_ok Btc.encodeOut os).mpr (by
    intro o ho
    obtain ⟨k1, k2⟩ := hos.2 o ho
    unfold Btc.encodeOut
    rw [if_neg (by simp [k1, k2])]
    exact ⟨_, rfl⟩)
  simp only [ha, hb, Res.bind_ok, Bool.false_eq_true, if_false]
  exact ⟨_, rfl⟩

theorem btcOut_shape {H : Hashes} {P : Btc.AddressPrefix} {v : Btc.Vout} {o : Btc.TxOut} (h : Btc.newTxOut H P v = .ok o) :
    o.amount.length = 8 ∧ o.lockScript ≠ [] := by
  unfold Btc.newTxOut at h
  simp only at h
  split at h
  · split at h
    · cases h; simp
    · cases h
    · cases h
  · split at h
    · split at h
      · cases h
      · split at h
        · cases h; simp
        · split at h
          · cases h; simp
          · cases h
    · cases h
    · cases h

theorem btcOut_panic (H : Hashes) (P : Btc.AddressPrefix) (v : Btc.Vout) : Btc.newTxOut H P v = .panic ↔
    if P.bech32 <+: v.address then ShortBech32 v.address else ShortBase58 Btc.alphabet (H.hash .doubleSha256) 20 v.address := by
  unfold Btc.newTxOut
  simp only
  by_cases hp : P.bech32 <+: v.address
  · rw [if_pos (List.isPrefixOf_iff_prefix.mpr hp), if_pos hp, ← bech32_panic]
    cases Bech32.decode v.address <;> simp
  · rw [if_neg (fun h => hp (List.isPrefixOf_iff_prefix.mp h)), if_neg hp, ← btc_panic]
    cases hd : Btc.decodeCheck H v.address with
    | panic => simp
    | err => simp
    | ok q =>
      simp only
      split_ifs <;> simp

end CreatePanic

open CreatePanic

/-- The inputs of a request are well-formed: there are some, and each names a transaction id of 32 bytes in hexadecimal digits. -/
def GoodIns (vins : List Btc.Vin) : Prop := vins ≠ [] ∧ ∀ v ∈ vins, ∃ id, HexText v.txid id ∧ id.length = 32

/-- C140, Bitcoin: `CreateEmptyRawTransaction` crashes if and only if the inputs are well-formed and, behind outputs that could be paid on their own, there
is one whose address holds too little: under the bech32 prefix of the network a text without a whole byte of data, otherwise a Base58 text of fewer
than four bytes, or of fewer than twenty and their checksum. -/
theorem C140_btc (H : Hashes) (vins : List Btc.Vin) (vouts : List Btc.Vout) (lt : UInt32) (r : Bool) (P : Btc.AddressPrefix) :
    Btc.createEmptyRawTransaction H vins vouts lt r P = .panic ↔ GoodIns vins ∧
      FirstBad (fun w => ∃ text, Btc.createEmptyRawTransaction H vins [w] lt r P = .ok text)
        (fun w => if P.bech32 <+: w.address then ShortBech32 w.address else ShortBase58 Btc.alphabet (H.hash .doubleSha256) 20 w.address) vouts := by
  unfold GoodIns
  rw [← btcIns_iff]
  have key := create_panic (create := fun vs => Btc.createEmptyRawTransaction H vins vs lt r P) (ins := Btc.newTxIns vins)
    (L := Btc.newTxOutLoop H P) (f := Btc.newTxOut H P) (g := fun a b => a :: b) (c := [])
    (post := fun i os => Btc.encodeTx false ⟨leBytes 4 2, i.map (Btc.setSequence lt r), os, leBytes 4 lt.toNat, false⟩ >>= fun b => .ok (Hex.encode b))
    (by
      simp only [Btc.createEmptyRawTransaction, Btc.newEmptyTransaction, Btc.newTxOuts, if_true]
      cases h : Btc.newTxIns vins with
      | panic => exact absurd h (btcIns_ne_panic _)
      | err => simp
      | ok i => simp)
    (btcIns_ne_panic _)
    (by
      intro vs hv
      simp only [Btc.createEmptyRawTransaction, Btc.newEmptyTransaction, Btc.newTxOuts, if_neg hv]
      cases Btc.newTxIns vins with
      | panic => rfl
      | err => rfl
      | ok i => cases Btc.newTxOutLoop H P vs <;> rfl)
    rfl (fun _ _ => rfl)
    (by
      intro i os _
      rw [Ne, DecPanic.bind_panic _ _ (by intro a; simp)]
      exact encodeTx_ne_panic _ rfl)
    (by
      intro i w o hi ho
      obtain ⟨b, hb⟩ := encodeTx_ok hi lt r 2 [o] ⟨by simp, by
        intro x hx
        simp only [List.mem_singleton] at hx
        subst hx
        exact btcOut_shape ho⟩
      exact ⟨Hex.encode b, by rw [hb]; rfl⟩) vouts
  simp only [btcOut_panic] at key
  exact key

namespace CreatePanic
open Verif.BtcVariants
open Verif.Btc (Vin Vout TxOut AddressPrefix)

theorem base58Script_panic (H : Hashes) (P : AddressPrefix) (p : Bool) (tail t : Bytes) : base58Script H P p tail t = .panic ↔
    ShortBase58 Btc.alphabet (H.hash .doubleSha256) 20 t := by
  rw [← btc_panic]
  unfold base58Script
  cases Btc.decodeCheck H t with
  | panic => simp
  | err => simp
  | ok q => simp only; split_ifs <;> simp

theorem base58Script_ne {H : Hashes} {P : AddressPrefix} {p : Bool} {tail t s : Bytes} (h : base58Script H P p tail t = .ok s) : s ≠ [] := by
  unfold base58Script at h
  split at h
  · simp only at h
    split_ifs at h <;> cases h <;> simp
  · cases h
  · cases h

/-- The creation of `bitcoincashTransaction` and its copies. -/
theorem createWith_panic (ver : Nat) (vins : List Vin) (lt : UInt32) (r : Bool) (f : Vout → Res (List TxOut)) (pre : Res Unit) (hpre : pre ≠ .panic)
    (hf : ∀ v os, f v = .ok os → os ≠ [] ∧ ∀ o ∈ os, o.amount.length = 8 ∧ o.lockScript ≠ [])
    (O : List Vout → Res (List TxOut)) (hO : ∀ vs, O vs = if vs = [] then .err else pre >>= fun _ => appendAll f vs) (vouts : List Vout) :
    createWith ver vins (O vouts) lt r = .panic ↔ GoodIns vins ∧ pre = .ok () ∧
      FirstBad (fun w => ∃ text, createWith ver vins (O [w]) lt r = .ok text) (fun w => f w = .panic) vouts := by
  unfold GoodIns
  rw [← btcIns_iff, ← and_assoc]
  have key := create_panic (create := fun vs => createWith ver vins (O vs) lt r) (ins := Btc.newTxIns vins >>= fun i => pre >>= fun _ => .ok i)
    (L := appendAll f) (f := f) (g := fun a b => a ++ b) (c := [])
    (post := fun i os => Btc.encodeTx false ⟨leBytes 4 ver, i.map (Btc.setSequence lt r), os, leBytes 4 lt.toNat, false⟩ >>= fun b => .ok (Hex.encode b))
    (by
      simp only [createWith, hO, if_true]
      cases h : Btc.newTxIns vins with
      | panic => exact absurd h (btcIns_ne_panic _)
      | err => simp
      | ok i => simp)
    (by
      cases h : Btc.newTxIns vins with
      | panic => exact absurd h (btcIns_ne_panic _)
      | err => simp
      | ok i =>
        cases hq : pre with
        | panic => exact absurd hq hpre
        | err => simp
        | ok u => simp)
    (by
      intro vs hv
      simp only [createWith, hO, if_neg hv]
      cases Btc.newTxIns vins with
      | panic => rfl
      | err => rfl
      | ok i =>
        cases pre with
        | panic => rfl
        | err => rfl
        | ok u => cases appendAll f vs <;> rfl)
    rfl (fun _ _ => rfl)
    (by
      intro i os _
      rw [Ne, DecPanic.bind_panic _ _ (by intro a; simp)]
      exact encodeTx_ne_panic _ rfl)
    (by
      intro i w o hi ho
      obtain ⟨j, hj, hi⟩ := Res.bind_eq_ok.mp hi
      obtain ⟨u, hu, hi⟩ := Res.bind_eq_ok.mp hi
      cases hi
      obtain ⟨b, hb⟩ := encodeTx_ok hj lt r ver (o ++ []) (by rw [List.append_nil]; exact hf w o ho)
      exact ⟨Hex.encode b, by rw [hb]; rfl⟩) vouts
  have hins : (∃ i, (Btc.newTxIns vins >>= fun i => pre >>= fun _ => .ok i) = .ok i) ↔ (∃ i, Btc.newTxIns vins = .ok i) ∧ pre = .ok () := by
    cases Btc.newTxIns vins with
    | panic => simp
    | err => simp
    | ok i => cases pre <;> simp
  rw [hins] at key
  exact key

theorem outBch_panic (H : Hashes) (P : AddressPrefix) (p : Bool) (v : Vout) : outBch H P p v = .panic ↔
    ShortBase58 Btc.alphabet (H.hash .doubleSha256) 20 v.address := by
  unfold outBch
  rw [DecPanic.bind_panic _ _ (by intro a; simp), base58Script_panic]

theorem bech32Outs_shape {P : AddressPrefix} {am tail t : Bytes} {os : List TxOut} (hl : am.length = 8) (h : bech32Outs P am tail t = .ok os) :
    ∀ o ∈ os, o.amount.length = 8 ∧ o.lockScript ≠ [] := by
  unfold bech32Outs at h
  split_ifs at h
  · split at h
    · cases h; simp [hl]
    · cases h
    · cases h
  · cases h; simp

theorem fall_shape {P : AddressPrefix} {am t : Bytes} {s : Res Bytes} {os : List TxOut} (hl : am.length = 8) (hs : ∀ x, s = .ok x → x ≠ [])
    (h : (bech32Outs P am [] t >>= fun first => s >>= fun x => Res.ok (first ++ [(⟨am, x⟩ : TxOut)])) = .ok os) :
    os ≠ [] ∧ ∀ o ∈ os, o.amount.length = 8 ∧ o.lockScript ≠ [] := by
  obtain ⟨first, h1, h⟩ := Res.bind_eq_ok.mp h
  obtain ⟨x, h2, h⟩ := Res.bind_eq_ok.mp h
  cases h
  refine ⟨by simp, ?_⟩
  intro o ho
  rcases List.mem_append.mp ho with h | h
  · exact bech32Outs_shape hl h1 o h
  · simp only [List.mem_singleton] at h
    subst h
    exact ⟨hl, hs x h2⟩

/-- The texts on which the copies without `continue` crash. -/
theorem fall_panic (H : Hashes) (P : AddressPrefix) (am t : Bytes) (s : Res Bytes) (hs : s = .panic ↔ ShortBase58 Btc.alphabet (H.hash .doubleSha256) 20 t)
    (hp : ¬ P.bech32 <+: t) :
    (bech32Outs P am [] t >>= fun first => s >>= fun x => Res.ok (first ++ [(⟨am, x⟩ : TxOut)])) = .panic ↔
      ShortBase58 Btc.alphabet (H.hash .doubleSha256) 20 t := by
  unfold bech32Outs
  rw [if_neg (fun h => hp (List.isPrefixOf_iff_prefix.mp h)), Res.bind_ok, DecPanic.bind_panic _ _ (by intro a; simp), hs]

theorem firstBad_congr {α : Type} {g b b' : α → Prop} {l : List α} (h : ∀ x ∈ l, (b x ↔ b' x)) : FirstBad g b l ↔ FirstBad g b' l := by
  unfold FirstBad
  constructor
  · rintro ⟨p, x, a, h1, h2, h3⟩
    exact ⟨p, x, a, h1, h2, (h x (by rw [h1]; simp)).mp h3⟩
  · rintro ⟨p, x, a, h1, h2, h3⟩
    exact ⟨p, x, a, h1, h2, (h x (by rw [h1]; simp)).mpr h3⟩

end CreatePanic

/-- C140, Bitcoin Cash and Bitcoin SV. -/
theorem C140_bch (H : Hashes) (vins : List Btc.Vin) (vouts : List Btc.Vout) (lt : UInt32) (r : Bool) (P : Btc.AddressPrefix) :
    BtcVariants.createBch H vins vouts lt r P = .panic ↔ GoodIns vins ∧
      FirstBad (fun w => ∃ text, BtcVariants.createBch H vins [w] lt r P = .ok text)
        (fun w => ShortBase58 Btc.alphabet (H.hash .doubleSha256) 20 w.address) vouts := by
  have key := createWith_panic 1 vins lt r (BtcVariants.outBch H P true) (.ok ()) (by simp)
    (by
      intro v os h
      obtain ⟨s, h1, h⟩ := Res.bind_eq_ok.mp h
      cases h
      simpa using base58Script_ne h1)
    (BtcVariants.outs (BtcVariants.outBch H P true)) (fun vs => rfl) vouts
  simp only [outBch_panic, true_and] at key
  exact key

/-- C140, the copies for CXC (version 1) and HC (version 2), for requests without an address under the bech32 prefix of the network. -/
theorem C140_cxc_hc (H : Hashes) (vins : List Btc.Vin) (vouts : List Btc.Vout) (lt : UInt32) (r : Bool) (P : Btc.AddressPrefix)
    (hp : ∀ v ∈ vouts, ¬ P.bech32 <+: v.address) :
    (BtcVariants.createCxc H vins vouts lt r P = .panic ↔ GoodIns vins ∧
      FirstBad (fun w => ∃ text, BtcVariants.createCxc H vins [w] lt r P = .ok text)
        (fun w => ShortBase58 Btc.alphabet (H.hash .doubleSha256) 20 w.address) vouts) ∧
    (BtcVariants.createHc H vins vouts lt r P = .panic ↔ GoodIns vins ∧
      FirstBad (fun w => ∃ text, BtcVariants.createHc H vins [w] lt r P = .ok text)
        (fun w => ShortBase58 Btc.alphabet (H.hash .doubleSha256) 20 w.address) vouts) := by
  have hf : ∀ v os, BtcVariants.outFall H P v = .ok os → os ≠ [] ∧ ∀ o ∈ os, o.amount.length = 8 ∧ o.lockScript ≠ [] :=
    fun v os h => fall_shape (by simp) (fun x hx => base58Script_ne hx) h
  have k1 := createWith_panic 1 vins lt r (BtcVariants.outFall H P) (.ok ()) (by simp) hf (BtcVariants.outs (BtcVariants.outFall H P)) (fun vs => rfl) vouts
  have k2 := createWith_panic 2 vins lt r (BtcVariants.outFall H P) (.ok ()) (by simp) hf (BtcVariants.outs (BtcVariants.outFall H P)) (fun vs => rfl) vouts
  have hb : ∀ v ∈ vouts, (BtcVariants.outFall H P v = .panic ↔ ShortBase58 Btc.alphabet (H.hash .doubleSha256) 20 v.address) :=
    fun v hv => fall_panic H P _ _ _ (base58Script_panic _ _ _ _ _) (hp v hv)
  rw [firstBad_congr hb] at k1 k2
  simp only [true_and] at k1 k2
  exact ⟨k1, k2⟩

/-- C140, Horizen, for requests without an address under the bech32 prefix of the network: the block hash must be hexadecimal as well. -/
theorem C140_zen (H : Hashes) (vins : List Btc.Vin) (vouts : List Btc.Vout) (lt : UInt32) (r : Bool) (P : Btc.AddressPrefix) (block : Bytes) (height : UInt64)
    (hp : ∀ v ∈ vouts, ¬ P.bech32 <+: v.address) :
    BtcVariants.createZen H vins vouts lt r P block height = .panic ↔ GoodIns vins ∧ (∃ b, HexText block b) ∧
      FirstBad (fun w => ∃ text, BtcVariants.createZen H vins [w] lt r P block height = .ok text)
        (fun w => ShortBase58 Btc.alphabet (H.hash .doubleSha256) 20 w.address) vouts := by
  cases hr : Btc.reverseHexToBytes block with
  | panic => exact absurd hr (reverse_ne_panic _)
  | err =>
    have hno : ¬ ∃ b, HexText block b := by
      rintro ⟨b, hb⟩
      rw [(reverse_iff block b.reverse).mpr (by simpa using hb)] at hr
      cases hr
    have key := createWith_panic 1 vins lt r (BtcVariants.outZen H P [] height) .err (by simp)
      (fun v os h => fall_shape (by simp) (fun x hx => base58Script_ne hx) h)
      (BtcVariants.outsZen H P block height) (fun vs => by unfold BtcVariants.outsZen; rw [hr]; rfl) vouts
    refine iff_of_false (fun h => ?_) (fun h => hno h.2.1)
    have := (key.mp h).2.1
    cases this
  | ok hash =>
    have hyes : ∃ b, HexText block b := ⟨_, (reverse_iff block hash).mp hr⟩
    have key := createWith_panic 1 vins lt r (BtcVariants.outZen H P hash height) (.ok ()) (by simp)
      (fun v os h => fall_shape (by simp) (fun x hx => base58Script_ne hx) h)
      (BtcVariants.outsZen H P block height) (fun vs => by unfold BtcVariants.outsZen; rw [hr]; rfl) vouts
    have hb : ∀ v ∈ vouts, (BtcVariants.outZen H P hash height v = .panic ↔ ShortBase58 Btc.alphabet (H.hash .doubleSha256) 20 v.address) :=
      fun v hv => fall_panic H P _ _ _ (base58Script_panic _ _ _ _ _) (hp v hv)
    rw [firstBad_congr hb] at key
    simp only [hyes, true_and] at key ⊢
    exact key

namespace CreatePanic

theorem vergeIn_iff (v : Verge.Vin) : (∃ i, Verge.newTxIn v = .ok i) ↔ (∃ id, HexText v.txid id) ∧ ∃ l, HexText v.lock l := by
  unfold Verge.newTxIn
  cases h : Btc.reverseHexToBytes v.txid with
  | panic => exact absurd h (reverse_ne_panic _)
  | err =>
    refine iff_of_false (by simp) ?_
    rintro ⟨⟨id, hid⟩, _⟩
    rw [(reverse_iff _ id.reverse).mpr (by simpa using hid)] at h; cases h
  | ok x =>
    have hx : ∃ id, HexText v.txid id := ⟨_, (reverse_iff _ _).mp h⟩
    simp only [Res.bind_ok, hx, true_and]
    simp only [← Eip.decode_iff]
    cases Hex.decode v.lock <;> simp

theorem vergeIn_ne_panic (v : Verge.Vin) : Verge.newTxIn v ≠ .panic := by
  unfold Verge.newTxIn
  cases h : Btc.reverseHexToBytes v.txid with
  | panic => exact absurd h (reverse_ne_panic _)
  | err => simp
  | ok x =>
    cases h : Hex.decode v.lock with
    | panic => exact absurd h (Hex.decode_ne_panic _)
    | err => simp
    | ok y => simp

theorem mapAll_ok' {α β : Type} (f : α → Res β) (l : List α) : (∃ b, HyperCash.mapAll f l = .ok b) ↔ ∀ x ∈ l, ∃ y, f x = .ok y :=
  loop_ok (L := HyperCash.mapAll f) rfl (fun _ _ => rfl) l

theorem mapAll_ne_panic {α β : Type} (f : α → Res β) (hf : ∀ x, f x ≠ .panic) (l : List α) : HyperCash.mapAll f l ≠ .panic :=
  loop_ne_panic (L := HyperCash.mapAll f) rfl (fun _ _ => rfl) hf l

/-- Before they are signed, inputs are always written down. -/
theorem vergeIns_unsigned {vins : List Verge.Vin} {ins : List Verge.TxIn} (h : HyperCash.mapAll Verge.newTxIn vins = .ok ins) :
    ∀ i ∈ ins, i.sigPub = none := by
  rw [HyperCash.mapAll_iff] at h
  intro i hi
  induction h with
  | nil => simp at hi
  | cons h1 _ ih =>
    rcases List.mem_cons.mp hi with rfl | hi
    · unfold Verge.newTxIn at h1
      obtain ⟨a, _, h1⟩ := Res.bind_eq_ok.mp h1
      obtain ⟨b, _, h1⟩ := Res.bind_eq_ok.mp h1
      cases h1; rfl
    · exact ih hi

theorem vergeToBytes {ins : List Verge.TxIn} (h : ∀ i ∈ ins, i.sigPub = none) : ∃ b, HyperCash.mapAll Verge.TxIn.toBytes ins = .ok b := by
  rw [mapAll_ok']
  intro i hi
  unfold Verge.TxIn.toBytes Verge.TxIn.scriptBytes
  rw [h i hi]
  exact ⟨_, rfl⟩

end CreatePanic

/-- The inputs of a request name a transaction id and a locking script in hexadecimal digits. -/
def HexIns (ins : List Verge.Vin) : Prop := ∀ v ∈ ins, (∃ id, HexText v.txid id) ∧ ∃ l, HexText v.lock l

/-- C140, Verge: the first output that cannot be paid decides; one byte and its checksum are enough not to crash. -/
theorem C140_verge (H : Hashes) (now : UInt32) (ins : List Verge.Vin) (outs : List Verge.Vout) (lt iv : UInt32) :
    Verge.createEmpty H now ins outs lt iv = .panic ↔ HexIns ins ∧
      FirstBad (fun w => ∃ text, Verge.createEmpty H now ins [w] lt iv = .ok text)
        (fun w => ShortBase58 Btc.alphabet (H.hash .doubleSha256) 1 w.address) outs := by
  have hf : ∀ w, Verge.newTxOut H w = .panic ↔ ShortBase58 Btc.alphabet (H.hash .doubleSha256) 1 w.address := by
    intro w
    rw [← verge_panic]
    unfold Verge.newTxOut
    cases Verge.decodeCheck H w.address with
    | panic => simp
    | err => simp
    | ok q => simp only [Res.bind_ok]; split_ifs <;> simp
  have key := create_panic (create := fun vs => Verge.createEmpty H now ins vs lt iv) (ins := HyperCash.mapAll Verge.newTxIn ins)
    (L := HyperCash.mapAll (Verge.newTxOut H)) (f := Verge.newTxOut H) (g := fun a b => a :: b) (c := [])
    (post := fun i os => Verge.TxStruct.toBytes ⟨[1, 0, 0, 0], leBytes 4 (now + iv).toNat, i, os, leBytes 4 lt.toNat⟩ >>= fun b =>
      .ok (Hex.encode b ++ ins.flatMap (fun v => 0x3a :: v.lock),
        Verge.TxStruct.getHash H ⟨[1, 0, 0, 0], leBytes 4 (now + iv).toNat, i, os, leBytes 4 lt.toNat⟩))
    (by
      simp only [Verge.createEmpty, Verge.newTxStruct]
      cases h : HyperCash.mapAll Verge.newTxIn ins with
      | panic => exact absurd h (mapAll_ne_panic _ vergeIn_ne_panic _)
      | err => simp
      | ok i =>
        obtain ⟨b, hb⟩ := vergeToBytes (vergeIns_unsigned h)
        simp [HyperCash.mapAll, Verge.TxStruct.toBytes, hb])
    (mapAll_ne_panic _ vergeIn_ne_panic _)
    (by
      intro vs hv
      simp only [Verge.createEmpty, Verge.newTxStruct]
      cases HyperCash.mapAll Verge.newTxIn ins with
      | panic => rfl
      | err => rfl
      | ok i => cases HyperCash.mapAll (Verge.newTxOut H) vs <;> rfl)
    rfl (fun _ _ => rfl)
    (by
      intro i os hi
      obtain ⟨b, hb⟩ := vergeToBytes (vergeIns_unsigned hi)
      simp [Verge.TxStruct.toBytes, hb])
    (by
      intro i w o hi ho
      obtain ⟨b, hb⟩ := vergeToBytes (vergeIns_unsigned hi)
      simp [Verge.TxStruct.toBytes, hb]) outs
  rw [mapAll_ok'] at key
  simp only [hf, vergeIn_iff] at key
  exact key

/-- C140, Vollar, for requests with inputs. -/
theorem C140_vollar (H : Hashes) (ins : List Verge.Vin) (hne : ins ≠ []) (outs : List Verge.Vout) :
    Vollar.createEmpty H ins outs = .panic ↔ HexIns ins ∧
      FirstBad (fun w => ∃ text, Vollar.createEmpty H ins [w] = .ok text)
        (fun w => ShortBase58 Btc.alphabet (H.hash .doubleSha256) 20 w.address) outs := by
  have hf : ∀ w, Vollar.newTxOut H w = .panic ↔ ShortBase58 Btc.alphabet (H.hash .doubleSha256) 20 w.address := by
    intro w
    rw [← btc_panic]
    unfold Vollar.newTxOut
    cases Btc.decodeCheck H w.address with
    | panic => simp
    | err => simp
    | ok q => simp only [Res.bind_ok]; split_ifs <;> simp
  have hlen : ∀ i, HyperCash.mapAll Verge.newTxIn ins = .ok i → ¬ i.length = 0 := by
    intro i hi
    rw [HyperCash.mapAll_iff] at hi
    have := hi.length_eq
    intro h0
    rw [h0] at this
    exact hne (List.length_eq_zero_iff.mp this)
  have key := create_panic (create := fun vs => Vollar.createEmpty H ins vs) (ins := HyperCash.mapAll Verge.newTxIn ins)
    (L := HyperCash.mapAll (Vollar.newTxOut H)) (f := Vollar.newTxOut H) (g := fun a b => a :: b) (c := [])
    (post := fun i os => Vollar.TxStruct.getHash H ⟨[1, 0, 0, 0], 0, i, os⟩ >>= fun hashes =>
      Vollar.TxStruct.toBytes ⟨[1, 0, 0, 0], 0, i, os⟩ >>= fun b => .ok (Hex.encode b ++ ins.flatMap (fun v => 0x3a :: v.lock), hashes))
    (by
      simp only [Vollar.createEmpty, Vollar.newTxStruct]
      cases h : HyperCash.mapAll Verge.newTxIn ins with
      | panic => exact absurd h (mapAll_ne_panic _ vergeIn_ne_panic _)
      | err => simp
      | ok i =>
        obtain ⟨b, hb⟩ := vergeToBytes (vergeIns_unsigned h)
        simp [HyperCash.mapAll, Vollar.TxStruct.toBytes, Vollar.TxStruct.getHash, hb, List.length_eq_zero_iff.not.mp (hlen i h)])
    (mapAll_ne_panic _ vergeIn_ne_panic _)
    (by
      intro vs hv
      simp only [Vollar.createEmpty, Vollar.newTxStruct]
      cases HyperCash.mapAll Verge.newTxIn ins with
      | panic => rfl
      | err => rfl
      | ok i => cases HyperCash.mapAll (Vollar.newTxOut H) vs <;> rfl)
    rfl (fun _ _ => rfl)
    (by
      intro i os hi
      obtain ⟨b, hb⟩ := vergeToBytes (vergeIns_unsigned hi)
      simp [Vollar.TxStruct.toBytes, Vollar.TxStruct.getHash, hb, List.length_eq_zero_iff.not.mp (hlen i hi)])
    (by
      intro i w o hi ho
      obtain ⟨b, hb⟩ := vergeToBytes (vergeIns_unsigned hi)
      simp [Vollar.TxStruct.toBytes, Vollar.TxStruct.getHash, hb, List.length_eq_zero_iff.not.mp (hlen i hi)]) outs
  rw [mapAll_ok'] at key
  simp only [hf, vergeIn_iff] at key
  exact key

/-- C140, Aliencoin. -/
theorem C140_alien (H : Hashes) (ins : List Verge.Vin) (outs : List Verge.Vout) (lt : UInt32) :
    Alien.createEmpty H ins outs lt = .panic ↔ HexIns ins ∧
      FirstBad (fun w => ∃ text, Alien.createEmpty H ins [w] lt = .ok text)
        (fun w => ShortBase58 Btc.alphabet (H.hash .doubleSha256) 1 w.address) outs := by
  have hf : ∀ w, Alien.newTxOut H w = .panic ↔ ShortBase58 Btc.alphabet (H.hash .doubleSha256) 1 w.address := by
    intro w
    rw [← verge_panic]
    unfold Alien.newTxOut
    cases Verge.decodeCheck H w.address with
    | panic => simp
    | err => simp
    | ok q => simp only [Res.bind_ok]; split_ifs <;> simp
  have hb : ∀ ins' : List Verge.TxIn, (∀ i ∈ ins', i.sigPub = none) → ∃ b, HyperCash.mapAll Alien.inToBytes ins' = .ok b := by
    intro ins' h
    rw [mapAll_ok']
    intro i hi
    unfold Alien.inToBytes
    rw [h i hi]
    exact ⟨_, rfl⟩
  have key := create_panic (create := fun vs => Alien.createEmpty H ins vs lt) (ins := HyperCash.mapAll Verge.newTxIn ins)
    (L := HyperCash.mapAll (Alien.newTxOut H)) (f := Alien.newTxOut H) (g := fun a b => a :: b) (c := [])
    (post := fun i os => Alien.toBytes ⟨[1, 0, 0, 0], [], i, os, leBytes 4 lt.toNat⟩ >>= fun b =>
      .ok (Hex.encode b ++ ins.flatMap (fun v => 0x3a :: v.lock), Alien.getHash H ⟨[1, 0, 0, 0], [], i, os, leBytes 4 lt.toNat⟩))
    (by
      simp only [Alien.createEmpty, Alien.newTxStruct]
      cases h : HyperCash.mapAll Verge.newTxIn ins with
      | panic => exact absurd h (mapAll_ne_panic _ vergeIn_ne_panic _)
      | err => simp
      | ok i =>
        obtain ⟨b, hb⟩ := hb _ (vergeIns_unsigned h)
        simp [HyperCash.mapAll, Alien.toBytes, hb])
    (mapAll_ne_panic _ vergeIn_ne_panic _)
    (by
      intro vs hv
      simp only [Alien.createEmpty, Alien.newTxStruct]
      cases HyperCash.mapAll Verge.newTxIn ins with
      | panic => rfl
      | err => rfl
      | ok i => cases HyperCash.mapAll (Alien.newTxOut H) vs <;> rfl)
    rfl (fun _ _ => rfl)
    (by
      intro i os hi
      obtain ⟨b, hb⟩ := hb _ (vergeIns_unsigned hi)
      simp [Alien.toBytes, hb])
    (by
      intro i w o hi ho
      obtain ⟨b, hb⟩ := hb _ (vergeIns_unsigned hi)
      simp [Alien.toBytes, hb]) outs
  rw [mapAll_ok'] at key
  simp only [hf, vergeIn_iff] at key
  exact key

namespace CreatePanic

theorem hcIn_iff (v : HyperCash.Vin) : (∃ i, HyperCash.newTxIn v = .ok i) ↔ (∃ id, HexText v.txid id ∧ id.length = 32) ∧ ∃ l, HexText v.lock l := by
  unfold HyperCash.newTxIn
  cases h : Btc.reverseHexToBytes v.txid with
  | panic => exact absurd h (reverse_ne_panic _)
  | err =>
    refine iff_of_false (by simp) ?_
    rintro ⟨⟨id, hid, _⟩, _⟩
    rw [(reverse_iff _ id.reverse).mpr (by simpa using hid)] at h; cases h
  | ok x =>
    have hx := (reverse_iff _ _).mp h
    have huniq : ∀ id, HexText v.txid id ↔ id = x.reverse := by
      intro id
      refine ⟨fun hid => ?_, fun e => e ▸ hx⟩
      have := (reverse_iff v.txid id.reverse).mpr (by simpa using hid)
      rw [h] at this
      rw [Res.ok.inj this]; simp
    simp only [Res.bind_ok, huniq, exists_eq_left, List.length_reverse]
    simp only [← Eip.decode_iff]
    by_cases hl : x.length = 32
    · rw [if_neg (by simpa using hl)]
      simp only [hl, true_and]
      cases Hex.decode v.lock <;> simp
    · rw [if_pos hl]; simp [hl]

theorem hcIn_ne_panic (v : HyperCash.Vin) : HyperCash.newTxIn v ≠ .panic := by
  unfold HyperCash.newTxIn
  cases h : Btc.reverseHexToBytes v.txid with
  | panic => exact absurd h (reverse_ne_panic _)
  | err => simp
  | ok x =>
    simp only [Res.bind_ok]
    split_ifs
    · simp
    · cases h : Hex.decode v.lock with
      | panic => exact absurd h (Hex.decode_ne_panic _)
      | err => simp
      | ok y => simp

theorem hashLoop_ok (H : Hashes) (t : HyperCash.TxStruct) : ∀ (xs : List HyperCash.TxIn) (i : Nat) (text : Bytes) (hashes : List Bytes),
    i + xs.length ≤ t.ins.length → ∃ r, HyperCash.hashLoop H t i xs text hashes = .ok r
  | [], _, _, _, _ => ⟨_, rfl⟩
  | x :: xs, i, text, hashes, h => by
    simp only [List.length_cons] at h
    unfold HyperCash.hashLoop HyperCash.TxStruct.getHash HyperCash.TxStruct.witnessBytes
    rw [if_neg (by omega)]
    exact hashLoop_ok H t xs (i + 1) _ _ (by omega)

end CreatePanic

/-- C140, HyperCash. -/
theorem C140_hypercash (H : Hashes) (ins : List HyperCash.Vin) (outs : List HyperCash.Vout) (lt ex : UInt32) :
    HyperCash.createEmpty H ins outs lt ex = .panic ↔
      (ins ≠ [] ∧ ∀ v ∈ ins, (∃ id, HexText v.txid id ∧ id.length = 32) ∧ ∃ l, HexText v.lock l) ∧
      FirstBad (fun w => ∃ text, HyperCash.createEmpty H ins [w] lt ex = .ok text)
        (fun w => ShortBase58 Btc.alphabet (fun d => H.hash .blake256 (H.hash .blake256 d)) 20 w.address) outs := by
  have hf : ∀ w, HyperCash.newTxOut H w = .panic ↔ ShortBase58 Btc.alphabet (fun d => H.hash .blake256 (H.hash .blake256 d)) 20 w.address := by
    intro w
    rw [← hc_panic]
    unfold HyperCash.newTxOut
    cases HyperCash.decodeCheck H w.address with
    | panic => simp
    | err => simp
    | ok q => simp only [Res.bind_ok]; split_ifs <;> simp
  by_cases hne : ins = []
  · subst hne
    refine iff_of_false ?_ (fun h => h.1.1 rfl)
    simp [HyperCash.createEmpty]
  have hl : ¬ ins.length = 0 := fun h => hne (List.length_eq_zero_iff.mp h)
  have hpost : ∀ (i : List HyperCash.TxIn) (os : List HyperCash.TxOut), ∃ r,
      HyperCash.hashLoop H ⟨i, os, leBytes 4 lt.toNat, leBytes 4 ex.toNat⟩ 0 i
        (Hex.encode (HyperCash.TxStruct.prefixBytes ⟨i, os, leBytes 4 lt.toNat, leBytes 4 ex.toNat⟩ 0)) [] = .ok r :=
    fun i os => hashLoop_ok H _ i 0 _ _ (by simp)
  have key := create_panic (create := fun vs => HyperCash.createEmpty H ins vs lt ex) (ins := HyperCash.mapAll HyperCash.newTxIn ins)
    (L := HyperCash.mapAll (HyperCash.newTxOut H)) (f := HyperCash.newTxOut H) (g := fun a b => a :: b) (c := [])
    (post := fun i os => HyperCash.hashLoop H ⟨i, os, leBytes 4 lt.toNat, leBytes 4 ex.toNat⟩ 0 i
        (Hex.encode (HyperCash.TxStruct.prefixBytes ⟨i, os, leBytes 4 lt.toNat, leBytes 4 ex.toNat⟩ 0)) [])
    (by simp [HyperCash.createEmpty])
    (mapAll_ne_panic _ hcIn_ne_panic _)
    (by
      intro vs hv
      have hv' : ¬ vs.length = 0 := fun h => hv (List.length_eq_zero_iff.mp h)
      simp only [HyperCash.createEmpty, HyperCash.newTxStruct, hl, hv', or_self, if_false]
      cases HyperCash.mapAll HyperCash.newTxIn ins with
      | panic => rfl
      | err => rfl
      | ok i => cases HyperCash.mapAll (HyperCash.newTxOut H) vs <;> rfl)
    rfl (fun _ _ => rfl)
    (by
      intro i os _
      obtain ⟨r, hr⟩ := hpost i os
      rw [hr]; simp)
    (by
      intro i w o _ _
      exact hpost i [o]) outs
  rw [mapAll_ok'] at key
  simp only [hf, hcIn_iff] at key
  simp only [ne_eq, hne, not_false_eq_true, true_and]
  exact key

end Verif
