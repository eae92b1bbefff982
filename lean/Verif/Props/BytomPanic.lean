import Verif.Spec.BytomCut
import Verif.Props.BytomMulti
import Verif.Props.CreatePanicOther
import Verif.Props.CombinePanicHc

/-! C143: which texts and records make the functions of `bytomTransaction` crash. -/

namespace Verif
open Spec.BytomWire Spec.BytomCut Spec.Crash Spec.Eip55

namespace Bytom

theorem take1_ne (b : Bytes) : take1 b ≠ .panic := by cases b <;> simp [take1]

theorem takeN_ne (n : Nat) (b : Bytes) : takeN n b ≠ .panic := by unfold takeN; split <;> simp

theorem bindp {α β : Type} {x : Res α} {f : α → Res β} (hx : x ≠ .panic) : (x >>= f) = .panic ↔ ∃ a, x = .ok a ∧ f a = .panic := by
  rw [Res.bind_eq_panic]
  constructor
  · rintro (h | h)
    · exact absurd h hx
    · exact h
  · exact Or.inr

theorem ite_panic {α : Type} {p : Prop} [Decidable p] {x : Res α} : (if p then .err else x) = .panic ↔ ¬ p ∧ x = .panic := by
  split <;> simp_all

theorem scan_panic : ∀ b : Bytes, scanUvarint b = .panic ↔ ∀ h ∈ b, (0x80 : UInt8) ≤ h
  | [] => by simp [scanUvarint]
  | x :: b => by
    unfold scanUvarint
    by_cases hx : x < 0x80
    · rw [if_pos hx]
      refine iff_of_false (by simp) ?_
      intro h
      have := h x (by simp)
      exact absurd hx (UInt8.not_lt.mpr this)
    · rw [if_neg hx, DecPanic.bind_panic _ _ (by intro a; simp), scan_panic b]
      simp [UInt8.not_lt.mp hx]

theorem read_panic (b : Bytes) : readUvarint b = .panic ↔ Endless b := by
  unfold Endless
  cases b with
  | nil => simp [readUvarint]
  | cons x b => simp only [readUvarint, scan_panic]; simp

theorem readVersion_ne : ∀ b : Bytes, readVersion b ≠ .panic
  | [] => by simp [readVersion]
  | x :: b => by
    unfold readVersion
    split
    · simp
    · exact readVersion_ne b

theorem commitment_panic (script : Bytes) (hs : script.length < 256) : decodeCommitment script = .panic ↔
    ∃ source asset amount inner : Bytes, source.length = 32 ∧ asset.length = 32 ∧ Endless amount ∧ IsStr inner (source ++ asset ++ amount) ∧
      script = [1] ++ inner := by
  unfold decodeCommitment
  simp only [bindp (take1_ne _), bindp (takeN_ne _ _), Prod.exists, take1_iff, takeN_iff, ite_panic, ne_eq, not_not, Res.bind_eq_panic, read_panic, readUvarint_iff]
  constructor
  · rintro ⟨v, b1, rfl, rfl, l, b2, rfl, hl, src, b3, ⟨rfl, h1⟩, asset, b4, ⟨rfl, h2⟩, h | h⟩
    · refine ⟨src, asset, b4, _, h1, h2, h, ⟨?_, ?_, rfl⟩, ?_⟩
      · intro h0
        have := congrArg List.length h0
        simp [h1] at this
      · simp at hs ⊢; omega
      · rw [hl]; simp
    · obtain ⟨a, b, _, p, b5, _, v, b6, _, _, c, b7, _, _, h⟩ := h
      cases h.2
  · rintro ⟨src, asset, amt, inner, h1, h2, h3, ⟨_, h4, rfl⟩, rfl⟩
    refine ⟨1, _, rfl, rfl, _, _, rfl, by simp, src, asset ++ amt, ⟨by simp, h1⟩, asset, amt, ⟨rfl, h2⟩, .inl h3⟩

theorem witness_ne (i : TxIn) (b : Bytes) : decodeWitness i b ≠ .panic := by
  unfold decodeWitness
  apply CreatePanic.bind_ne (take1_ne _)
  rintro ⟨w, b⟩
  dsimp only
  split
  · apply CreatePanic.bind_ne (take1_ne _)
    rintro ⟨z, b⟩
    dsimp only
    split <;> simp
  · split
    · simp
    · split
      · split
        · apply CreatePanic.bind_ne (takeN_ne _ _)
          rintro ⟨s, r⟩
          apply CreatePanic.bind_ne (take1_ne _)
          rintro ⟨l, r⟩
          dsimp only
          split
          · simp
          · exact CreatePanic.bind_ne (takeN_ne _ _) (by simp)
        · split
          · exact CreatePanic.bind_ne (takeN_ne _ _) (by simp)
          · simp
      · simp

theorem u8_zero {l : UInt8} (h : l = 0) : l.toNat = 0 := by rw [h]; rfl

theorem in_panic (b : Bytes) : decodeIn b = .panic ↔ CutIn b := by
  unfold decodeIn
  simp only [bindp (take1_ne _), bindp (takeN_ne _ _), Prod.exists, take1_iff, takeN_iff, ite_panic, ne_eq, not_not]
  constructor
  · rintro ⟨v, b1, rfl, rfl, l, b2, rfl, hl, c, b3, ⟨rfl, hc⟩, h⟩
    rw [DecPanic.bind_panic _ _ (fun i => witness_ne i b3), commitment_panic _ (by rw [hc]; exact l.toNat_lt)] at h
    obtain ⟨src, asset, amt, inner, h1, h2, h3, h4, rfl⟩ := h
    refine ⟨src, asset, amt, inner, _, b3, h1, h2, h3, h4, ⟨by simp, by rw [hc]; exact l.toNat_lt, rfl⟩, ?_⟩
    rw [hc]; simp
  · rintro ⟨src, asset, amt, inner, outer, rest, h1, h2, h3, h4, ⟨h5, h6, rfl⟩, rfl⟩
    have tn : (UInt8.ofNat ([1] ++ inner).length).toNat = ([1] ++ inner).length := by rw [UInt8.toNat_ofNat']; omega
    refine ⟨1, UInt8.ofNat ([1] ++ inner).length :: ([1] ++ inner) ++ rest, by simp, rfl, UInt8.ofNat ([1] ++ inner).length, ([1] ++ inner) ++ rest, rfl, ?_,
      [1] ++ inner, rest, ⟨rfl, tn.symm⟩, ?_⟩
    · intro h0
      have := u8_zero h0
      rw [tn] at this
      simp at this
    · rw [DecPanic.bind_panic _ _ (fun i => witness_ne i rest), commitment_panic _ h6]
      exact ⟨src, asset, amt, inner, h1, h2, h3, h4, rfl⟩

theorem script_panic (s : Bytes) : decodeOutputScript s = .panic ↔ ∃ asset amount : Bytes, asset.length = 32 ∧ Endless amount ∧ s = asset ++ amount := by
  unfold decodeOutputScript
  simp only [bindp (take1_ne _), bindp (takeN_ne _ _), Prod.exists, take1_iff, takeN_iff, ite_panic, ne_eq, not_not, Res.bind_eq_panic, read_panic, readUvarint_iff]
  constructor
  · rintro ⟨asset, b4, ⟨rfl, h2⟩, h | h⟩
    · exact ⟨asset, b4, h2, h, rfl⟩
    · obtain ⟨a, b, _, v, b6, _, _, c, b7, _, _, _, h⟩ := h
      cases h.2
  · rintro ⟨asset, amt, h1, h2, rfl⟩
    exact ⟨asset, amt, ⟨rfl, h1⟩, .inl h2⟩

theorem out_panic (b : Bytes) : decodeOut b = .panic ↔ CutOut b := by
  unfold decodeOut
  have hpost : ∀ (b3 : Bytes) (o : TxOut), (take1 b3 >>= fun x => match x with | (w, b) => if w ≠ 0 then Res.err else .ok (o, b)) ≠ .panic := by
    intro b3 o
    apply CreatePanic.bind_ne (take1_ne _)
    rintro ⟨w, b⟩
    dsimp only
    split <;> simp
  simp only [bindp (take1_ne _), bindp (takeN_ne _ _), Prod.exists, take1_iff, takeN_iff, ite_panic, ne_eq, not_not]
  constructor
  · rintro ⟨v, b1, rfl, rfl, l, b2, rfl, hl, c, b3, ⟨rfl, hc⟩, h⟩
    have h := (DecPanic.bind_panic _ _ (fun o => hpost b3 o)).mp h
    obtain ⟨asset, amt, h1, h2, rfl⟩ := (script_panic _).mp h
    refine ⟨asset, amt, _, b3, h1, h2, ⟨?_, by rw [hc]; exact l.toNat_lt, rfl⟩, ?_⟩
    · intro h0
      have := congrArg List.length h0
      simp [h1] at this
    · rw [hc]; simp
  · rintro ⟨asset, amt, comm, rest, h1, h2, ⟨h5, h6, rfl⟩, rfl⟩
    have tn : (UInt8.ofNat (asset ++ amt).length).toNat = (asset ++ amt).length := by rw [UInt8.toNat_ofNat']; omega
    refine ⟨1, UInt8.ofNat (asset ++ amt).length :: (asset ++ amt) ++ rest, by simp, rfl, UInt8.ofNat (asset ++ amt).length, (asset ++ amt) ++ rest, rfl, ?_,
      asset ++ amt, rest, ⟨rfl, tn.symm⟩, ?_⟩
    · intro h0
      have := u8_zero h0
      rw [tn] at this
      simp [h1] at this
    · exact (DecPanic.bind_panic _ _ (fun o => hpost rest o)).mpr ((script_panic _).mpr ⟨asset, amt, h1, h2, rfl⟩)

theorem many_panic {α : Type} (f : Bytes → Res (α × Bytes)) (P : Bytes → α → Prop) (C : Bytes → Prop) (hf : ∀ b x r, f b = .ok (x, r) ↔ ∃ w, P w x ∧ b = w ++ r)
    (hc : ∀ b, f b = .panic ↔ C b) : ∀ (n : Nat) (b : Bytes), readMany f n b = .panic ↔
      ∃ good cut, ∃ k < n, (∃ ws xs, List.length ws = k ∧ List.Forall₂ P ws xs ∧ good = ws.flatten) ∧ C cut ∧ b = good ++ cut := by
  intro n
  induction n with
  | zero => intro b; simp [readMany]
  | succ n ih =>
    intro b
    unfold readMany
    rw [Res.bind_eq_panic, hc]
    simp only [Prod.exists, hf]
    constructor
    · rintro (h | ⟨x, r, ⟨w, hw, rfl⟩, h⟩)
      · exact ⟨[], b, 0, by omega, ⟨[], [], rfl, .nil, rfl⟩, h, rfl⟩
      · have h := (DecPanic.bind_panic _ _ (by rintro ⟨a, b⟩; simp)).mp h
        obtain ⟨good, cut, k, hk, ⟨ws, xs, hl, hp, rfl⟩, hcut, rfl⟩ := (ih r).mp h
        exact ⟨w ++ ws.flatten, cut, k + 1, by omega, ⟨w :: ws, x :: xs, by simp [hl], .cons hw hp, by simp⟩, hcut, by simp⟩
    · rintro ⟨good, cut, k, hk, ⟨ws, xs, hl, hp, rfl⟩, hcut, rfl⟩
      cases hp with
      | nil => exact .inl hcut
      | @cons w x ws xs hw hp =>
        refine .inr ⟨x, ws.flatten ++ cut, ⟨w, hw, by simp⟩, ?_⟩
        refine (DecPanic.bind_panic _ _ (by rintro ⟨a, b⟩; simp)).mpr ((ih _).mpr ⟨ws.flatten, cut, ws.length, ?_, ⟨ws, xs, rfl, hp, rfl⟩, hcut, rfl⟩)
        simp at hl; omega

end Bytom

/-- C143, the decoder: `DecodeRawTransaction` crashes exactly on the texts that are cut off inside the time range, or whose commitments end inside an
amount. -/
theorem C143_read (b : Bytes) : Bytom.decodeRaw b = .panic ↔ CutTx b := by
  unfold Bytom.decodeRaw CutTx
  simp only [Bytom.bindp (Bytom.take1_ne _), Bytom.bindp (Bytom.readVersion_ne _), Prod.exists, Bytom.take1_iff, Bytom.readVersion_iff, Bytom.ite_panic, ne_eq,
    not_not, Res.bind_eq_panic (x := Bytom.readUvarint _), Res.bind_eq_panic (x := Bytom.readMany _ _ _), Bytom.read_panic, Bytom.readUvarint_iff,
    Bytom.many_panic _ _ _ Bytom.decodeIn_iff Bytom.in_panic, Bytom.many_panic _ _ _ Bytom.decodeOut_iff Bytom.out_panic,
    Bytom.readMany_iff _ _ Bytom.decodeIn_iff, Bytom.readMany_iff _ _ Bytom.decodeOut_iff]
  constructor
  · rintro ⟨f, b1, rfl, rfl, ver, b2, ⟨skip, l, rfl, hh, hl, rfl⟩, h⟩
    refine ⟨skip, b2, l, hh, hl, by simp, ?_⟩
    rcases h with h | ⟨tr, b3, ⟨rfl, htr⟩, n, b4, rfl, hn, h⟩
    · exact .inl h
    · refine .inr ⟨tr, b4, n, htr, hn, by simp, ?_⟩
      rcases h with ⟨good, cut, k, hk, hg, hc, rfl⟩ | ⟨ins, b5, ⟨ws, hws, hwl, rfl⟩, m, b6, rfl, hm, h⟩
      · exact .inl ⟨good, cut, k, hk, hg, hc, rfl⟩
      · rcases h with ⟨good, cut, k, hk, hg, hc, rfl⟩ | ⟨os, b7, _, _, h⟩
        · exact .inr ⟨ws.flatten, good, cut, m, k, hk, ⟨ws, ins, by rw [← hwl]; exact hws.length_eq, hws, rfl⟩, hg, hc, by simp⟩
        · cases h
  · rintro ⟨skip, tail, ver, hh, hl, rfl, h⟩
    refine ⟨7, skip ++ [ver] ++ tail, by simp, rfl, [ver], tail, ⟨skip, ver, by simp, hh, hl, rfl⟩, ?_⟩
    rcases h with h | ⟨tr, body, n, htr, hn, rfl, h⟩
    · exact .inl h
    · refine .inr ⟨tr, n :: body, ⟨by simp, htr⟩, n, body, rfl, hn, ?_⟩
      rcases h with ⟨good, cut, k, hk, hg, hc, rfl⟩ | ⟨_, good, cut, m, k, hk, ⟨ws, ins, hwl, hws, rfl⟩, hg, hc, rfl⟩
      · exact .inl ⟨good, cut, k, hk, hg, hc, rfl⟩
      · refine .inr ⟨ins, m :: (good ++ cut), ⟨ws, hws, by rw [← hwl]; exact hws.length_eq.symm, by simp⟩, m, _, rfl, ?_, .inl ⟨good, cut, k, hk, hg, hc, rfl⟩⟩
        rintro rfl
        exact absurd hk (Nat.not_lt_zero k)

namespace Bytom

/-- What the decoder guarantees for the computation of the hashes. -/
def Sound (t : Transaction) : Prop :=
  t.inputs ≠ [] ∧ t.outputs ≠ [] ∧ (∀ i ∈ t.inputs, i.sourceID.length = 32 ∧ i.assetID.length = 32 ∧ i.controlProgram ≠ []) ∧
    ∀ o ∈ t.outputs, o.assetID.length = 32 ∧ o.amount ≠ [] ∧ o.controlProgram ≠ []

theorem varint_ne {v : Bytes} (h : IsVarint v) : v ≠ [] := by
  obtain ⟨hs, l, rfl, _⟩ := h
  simp

theorem forall2_right {α β : Type} {P : α → β → Prop} {l : List α} {m : List β} (h : List.Forall₂ P l m) : ∀ b ∈ m, ∃ a, P a b := by
  induction h with
  | nil => simp
  | cons h _ ih =>
    intro b hb
    rcases List.mem_cons.mp hb with rfl | hb
    · exact ⟨_, h⟩
    · exact ih b hb

theorem sound_of {b : Bytes} {t : Transaction} (h : IsTx false b t) : Sound t := by
  obtain ⟨skip, ver, ins, outs, _, _, _, _, _, hi, ho, h1, _, h2, _, _⟩ := h
  refine ⟨List.length_pos_iff.mp h1, List.length_pos_iff.mp h2, ?_, ?_⟩
  · intro i hm
    obtain ⟨w, pos, prog, c, c', body, w', g1, g2, _, _, _, g3, _⟩ := forall2_right hi i hm
    exact ⟨g1, g2, g3.1⟩
  · intro o hm
    obtain ⟨w, prog, c, g1, g2, g3, _⟩ := forall2_right ho o hm
    refine ⟨g1, varint_ne g2, ?_⟩
    rw [g3.2.2]; simp

theorem inputID_sound (H : Hashes) {t : Transaction} (h : Sound t) {k : Nat} (hk : k < t.inputs.length) : ∃ x, getInputID H t k = .ok x := by
  obtain ⟨h1, _, h3, _⟩ := h
  unfold getInputID
  rw [if_neg (by omega), if_neg (by omega)]
  have hi : index t.inputs k = .ok t.inputs[k] := by simp [index, hk]
  obtain ⟨g1, g2, g3⟩ := h3 t.inputs[k] (List.getElem_mem hk)
  have g3 : t.inputs[k].controlProgram.length ≠ 0 := by simpa using g3
  rw [hi, Res.bind_ok, if_neg (by simp [g1]), if_neg (by simp [g2]), if_neg g3]
  exact ⟨_, rfl⟩

theorem collect_sound {α : Type} (f : Nat → Res Bytes) : ∀ (l : List α) (k : Nat), (∀ j < k + l.length, ∃ x, f j = .ok x) → ∃ xs, collectIDs f k l = .ok xs
  | [], k, _ => ⟨[], rfl⟩
  | _ :: l, k, h => by
    obtain ⟨x, hx⟩ := h k (by simp)
    obtain ⟨xs, hxs⟩ := collect_sound f l (k + 1) (fun j hj => h j (by simp; omega))
    exact ⟨x :: xs, by unfold collectIDs; rw [hx, Res.bind_ok, hxs]; rfl⟩

theorem sigHash_sound (H : Hashes) {t : Transaction} (h : Sound t) {k : Nat} (hk : k < t.inputs.length) : ∃ x, getSigHash H t k = .ok x := by
  obtain ⟨x, hx⟩ := inputID_sound H h hk
  have hmux : ∃ m, getMuxID H t = .ok m := by
    obtain ⟨ids, hids⟩ := collect_sound (getInputID H t) t.inputs 0 (fun j hj => inputID_sound H h (by omega))
    unfold getMuxID
    rw [hids]
    exact ⟨_, rfl⟩
  obtain ⟨m, hm⟩ := hmux
  have hout : ∀ j < t.outputs.length, ∃ x, getOutID H t j = .ok x := by
    intro j hj
    obtain ⟨_, h2, _, h4⟩ := h
    obtain ⟨g1, g2, g3⟩ := h4 t.outputs[j] (List.getElem_mem hj)
    have hi : index t.outputs j = .ok t.outputs[j] := by simp [index, hj]
    unfold getOutID
    rw [hm, Res.bind_ok, if_neg (by omega), hi, Res.bind_ok, if_neg (by simp [g1]), if_neg (by simpa using g2), if_neg (by simpa using g3)]
    exact ⟨_, rfl⟩
  obtain ⟨ids, hids⟩ := collect_sound (getOutID H t) t.outputs 0 (fun j hj => hout j (by omega))
  unfold getSigHash getTxID
  rw [hx, Res.bind_ok, hids]
  exact ⟨_, rfl⟩

theorem convertBits_ne (d : List Nat) (f t : Nat) (p : Bool) : convertBits d f t p ≠ .panic := by
  unfold convertBits
  split
  · simp
  · simp only
    split
    · simp
    · split <;> simp

theorem bech32Decode_ne (t : Bytes) : bech32Decode t ≠ .panic := by
  unfold bech32Decode
  split
  · simp
  split
  · simp
  split
  · simp
  simp only
  split
  · simp
  split
  · simp
  split
  · simp
  split <;> simp

theorem decodeSegWit_ne (t : Bytes) : decodeSegWitAddress t ≠ .panic := by
  unfold decodeSegWitAddress
  apply CreatePanic.bind_ne (bech32Decode_ne t)
  rintro ⟨hrp, data⟩
  dsimp only
  cases data with
  | nil => simp
  | cons v rest =>
    simp only
    split
    · simp
    · apply CreatePanic.bind_ne (convertBits_ne _ _ _ _)
      intro r
      split
      · simp
      · split <;> simp

theorem toChars_ne : ∀ l, toChars l ≠ .panic
  | [] => by simp [toChars]
  | v :: vs => by
    unfold toChars
    split
    · simp
    · have := toChars_ne vs
      cases h : toChars vs <;> simp_all

theorem encodeSegWit_ne (hrp : Bytes) (v : Nat) (p : Bytes) : encodeSegWitAddress hrp v p ≠ .panic := by
  unfold encodeSegWitAddress
  apply CreatePanic.bind_ne (convertBits_ne _ _ _ _)
  intro c
  apply CreatePanic.bind_ne
  · exact CreatePanic.bind_ne (toChars_ne _) (by simp)
  intro b
  apply CreatePanic.bind_ne (decodeSegWit_ne _)
  rintro ⟨a, b⟩
  dsimp only
  split <;> simp

theorem decodeSegWit_len {t p : Bytes} (h : decodeSegWitAddress t = .ok (0, p)) : p.length = 20 ∨ p.length = 32 := by
  unfold decodeSegWitAddress at h
  obtain ⟨⟨hrp, data⟩, _, h⟩ := Res.bind_eq_ok.mp h
  cases data with
  | nil => cases h
  | cons v rest =>
    simp only at h
    split_ifs at h
    obtain ⟨r, _, h⟩ := Res.bind_eq_ok.mp h
    split_ifs at h with h2 h3
    simp only [Res.ok.injEq, Prod.mk.injEq] at h
    obtain ⟨rfl, rfl⟩ := h
    rw [List.length_map]; omega

theorem encodeSegWit_len {hrp a p : Bytes} (h : encodeSegWitAddress hrp 0 p = .ok a) : p.length = 20 ∨ p.length = 32 := by
  unfold encodeSegWitAddress at h
  obtain ⟨c, _, h⟩ := Res.bind_eq_ok.mp h
  obtain ⟨b, _, h⟩ := Res.bind_eq_ok.mp h
  obtain ⟨⟨v, q⟩, hd, h⟩ := Res.bind_eq_ok.mp h
  simp only at h
  split_ifs at h with hq
  simp only [not_or, not_not] at hq
  obtain ⟨rfl, rfl⟩ := hq
  exact decodeSegWit_len hd

theorem hashFor_cases (H : Hashes) {t : Transaction} (h : Sound t) (test : Bool) {k : Nat} (hk : k < t.inputs.length) (i : TxIn) (hi : i.controlProgram ≠ []) :
    (hashFor H t test k i = .panic ↔ i.controlProgram.length = 1) ∧
    ((∃ x, hashFor H t test k i = .ok x) ↔ i.controlProgram.length = 22 ∨ i.controlProgram.length = 34) := by
  obtain ⟨x, hx⟩ := sigHash_sound H h hk
  have hpos : 0 < i.controlProgram.length := List.length_pos_iff.mpr hi
  unfold hashFor
  rw [hx, Res.bind_ok]
  by_cases h34 : i.controlProgram.length = 34
  · rw [if_pos h34]
    simp [h34]
  rw [if_neg h34]
  by_cases h1 : i.controlProgram.length = 1
  · have : slice i.controlProgram 2 i.controlProgram.length = .panic := by
      unfold slice
      rw [if_neg (by omega)]
    rw [this]
    simp [h1]
  · rw [slice_ok (by omega) (by omega), Res.bind_ok]
    have hd : (i.controlProgram.take i.controlProgram.length).drop 2 = i.controlProgram.drop 2 := by simp
    rw [hd]
    constructor
    · refine iff_of_false ?_ h1
      exact CreatePanic.bind_ne (encodeSegWit_ne _ _ _) (by simp)
    · constructor
      · rintro ⟨y, hy⟩
        obtain ⟨a, ha, _⟩ := Res.bind_eq_ok.mp hy
        have := encodeSegWit_len ha
        rw [List.length_drop] at this
        omega
      · rintro (h22 | h34')
        · obtain ⟨hh, hl, he⟩ := hrpOf_ok test
          obtain ⟨a, ha, _⟩ := encode_address (hrpOf test) (i.controlProgram.drop 2) hh (by omega) (by rw [List.length_drop]; omega)
          rw [ha]
          exact ⟨_, rfl⟩
        · exact absurd h34' h34

theorem hashLoop_panic (H : Hashes) {t : Transaction} (h : Sound t) (test : Bool) : ∀ (ins : List TxIn) (k : Nat), k + ins.length = t.inputs.length →
    (∀ i ∈ ins, i.controlProgram ≠ []) →
    (hashLoop H t test k ins = .panic ↔ FirstBad (fun i => i.controlProgram.length = 22 ∨ i.controlProgram.length = 34) (fun i => i.controlProgram.length = 1) ins)
  | [], k, _, _ => by
    refine iff_of_false (by simp [hashLoop]) ?_
    rintro ⟨b, x, a, h, _⟩
    simp at h
  | i :: is, k, hk, hne => by
    obtain ⟨c1, c2⟩ := hashFor_cases H h test (k := k) (by simp at hk; omega) i (hne i (by simp))
    unfold hashLoop
    rw [CombinePanic.firstBad_cons, Res.bind_eq_panic, c1, ← c2]
    have ih := hashLoop_panic H h test is (k + 1) (by simp at hk; omega) (fun j hj => hne j (by simp [hj]))
    rw [← ih]
    constructor
    · rintro (g | ⟨x, g, g'⟩)
      · exact .inl g
      · exact .inr ⟨⟨x, g⟩, (DecPanic.bind_panic _ _ (by simp)).mp g'⟩
    · rintro (g | ⟨⟨x, g⟩, g'⟩)
      · exact .inl g
      · exact .inr ⟨x, g, (DecPanic.bind_panic _ _ (by simp)).mpr g'⟩

end Bytom

/-- C143, the hashes: `CreateRawTransactionHashForSig` crashes exactly on the hexadecimal form of a text cut off as above, or of a transaction with an input
whose control program is a single byte, behind inputs with programs of 22 or 34 bytes. -/
theorem C143_hashes (H : Hashes) (text : Bytes) (test : Bool) :
    Bytom.hashForSig H text test = .panic ↔ ∃ b, HexText text b ∧ (CutTx b ∨ ∃ t, IsTx false b t ∧
      FirstBad (fun i => i.controlProgram.length = 22 ∨ i.controlProgram.length = 34) (fun i => i.controlProgram.length = 1) t.inputs) := by
  unfold Bytom.hashForSig
  rw [Bytom.bindp (Hex.decode_ne_panic _)]
  simp only [Eip.decode_iff, Res.bind_eq_panic, C143_read, C120_language_partial]
  constructor
  · rintro ⟨b, hb, h | ⟨t, ht, h⟩⟩
    · exact ⟨b, hb, .inl h⟩
    · have hs := Bytom.sound_of ht
      exact ⟨b, hb, .inr ⟨t, ht, (Bytom.hashLoop_panic H hs test t.inputs 0 (by simp) (fun i hi => (hs.2.2.1 i hi).2.2)).mp h⟩⟩
  · rintro ⟨b, hb, h | ⟨t, ht, h⟩⟩
    · exact ⟨b, hb, .inl h⟩
    · have hs := Bytom.sound_of ht
      exact ⟨b, hb, .inr ⟨t, ht, (Bytom.hashLoop_panic H hs test t.inputs 0 (by simp) (fun i hi => (hs.2.2.1 i hi).2.2)).mpr h⟩⟩

end Verif
