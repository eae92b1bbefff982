import Verif.Props.BtcVariantsSpend
import Verif.Spec.BtcKinds

/-! Property C62, the part that holds: when inserting signatures returns a transaction, and when the empty text. -/

namespace Verif
open Verif.Spec Verif.Btc Verif.BtcVariants

namespace Btc

theorem keyHash_shape (s : Bytes) (n : Nat) (hn : 25 ≤ n) : (s.length = n ∧ s[0]? = some 0x76 ∧ s[1]? = some 0xa9 ∧ s[2]? = some 0x14 ∧ s[23]? = some 0x88 ∧
    s[24]? = some 0xac) ↔ ∃ h tail, h.length = 20 ∧ tail.length = n - 25 ∧ s = p2pkhScript h ++ tail := by
  constructor
  · rintro ⟨h0, h1, h2, h3, h4, h5⟩
    match s, h0, h1, h2, h3, h4, h5 with
    | a :: b :: c :: t, h0, h1, h2, h3, h4, h5 =>
      simp only [List.getElem?_cons_zero, List.getElem?_cons_succ, Option.some.injEq, List.length_cons] at h0 h1 h2 h3 h4 h5
      refine ⟨t.take 20, t.drop 22, by simp; omega, by simp; omega, ?_⟩
      have e : t = t.take 20 ++ ([0x88, 0xac] ++ t.drop 22) := by
        have a1 : t.drop 20 = 0x88 :: t.drop 21 := by
          rw [List.drop_eq_getElem_cons (by omega)]
          congr 1
          rw [List.getElem?_eq_getElem (by omega)] at h4
          exact Option.some.inj h4
        have a2 : t.drop 21 = 0xac :: t.drop 22 := by
          rw [List.drop_eq_getElem_cons (by omega)]
          congr 1
          rw [List.getElem?_eq_getElem (by omega)] at h5
          exact Option.some.inj h5
        have := (List.take_append_drop 20 t).symm
        rw [a1, a2] at this
        exact this
      subst h1 h2 h3
      unfold p2pkhScript
      rw [List.append_assoc, List.append_assoc, ← e]
      rfl
  · rintro ⟨h, tail, hl, ht, rfl⟩
    unfold p2pkhScript
    refine ⟨by simp; omega, rfl, rfl, rfl, ?_, ?_⟩
    · simp [hl]
    · simp [List.getElem?_append_right, hl]

theorem scriptHash_shape (s : Bytes) (n : Nat) (hn : 23 ≤ n) : (s.length = n ∧ s[0]? = some 0xa9 ∧ s[1]? = some 0x14 ∧ s[22]? = some 0x87) ↔
    ∃ h tail, h.length = 20 ∧ tail.length = n - 23 ∧ s = p2shScript h ++ tail := by
  constructor
  · rintro ⟨h0, h1, h2, h4⟩
    match s, h0, h1, h2, h4 with
    | a :: b :: t, h0, h1, h2, h4 =>
      simp only [List.getElem?_cons_zero, List.getElem?_cons_succ, Option.some.injEq, List.length_cons] at h0 h1 h2 h4
      refine ⟨t.take 20, t.drop 21, by simp; omega, by simp; omega, ?_⟩
      have e : t = t.take 20 ++ ([0x87] ++ t.drop 21) := by
        have a1 : t.drop 20 = 0x87 :: t.drop 21 := by
          rw [List.drop_eq_getElem_cons (by omega)]
          congr 1
          rw [List.getElem?_eq_getElem (by omega)] at h4
          exact Option.some.inj h4
        have := (List.take_append_drop 20 t).symm
        rw [a1] at this
        exact this
      subst h1 h2
      unfold p2shScript
      rw [List.append_assoc, List.append_assoc, ← e]
      rfl
  · rintro ⟨h, tail, hl, ht, rfl⟩
    unfold p2shScript
    refine ⟨by simp; omega, rfl, rfl, ?_⟩
    simp [hl]

theorem program_shape (s : Bytes) : (s.length = 22 ∧ s[0]? = some 0x00 ∧ s[1]? = some 0x14) ↔ ∃ k, k.length = 20 ∧ s = witnessV0Script k := by
  constructor
  · rintro ⟨h0, h1, h2⟩
    match s, h0, h1, h2 with
    | a :: b :: t, h0, h1, h2 =>
      simp only [List.getElem?_cons_zero, List.getElem?_cons_succ, Option.some.injEq, List.length_cons] at h0 h1 h2
      refine ⟨t, by omega, ?_⟩
      subst h1 h2
      unfold witnessV0Script push
      rw [show t.length = 20 by omega]
      rfl
  · rintro ⟨k, hk, rfl⟩
    unfold witnessV0Script push
    rw [hk]
    exact ⟨by simp [hk], rfl, rfl⟩

theorem spendable_shape (r : Bytes) : ((r.length = 22 ∧ r[0]? = some 0x00 ∧ r[1]? = some 0x14) ∨ (r.length ≥ 37 ∧ r.getLast? = some 0xae)) ↔
    ((∃ k, k.length = 20 ∧ r = witnessV0Script k) ∨ (37 ≤ r.length ∧ r.getLast? = some 0xae)) := by
  rw [program_shape]

theorem ok_ite {α : Type} {c d : Prop} [Decidable c] [Decidable d] {a b : α} :
    (∃ v, (if c then Res.ok a else if d then Res.ok b else Res.err) = Res.ok v) ↔ c ∨ d := by
  by_cases hc : c
  · simp [hc]
  · by_cases hd : d <;> simp [hc, hd]

/-- The kinds that `checkScriptType` recognises. -/
theorem check_iff (l r : Bytes) : (∃ v, checkScriptType l r = .ok v) ↔ Unlockable false false l r := by
  unfold checkScriptType Unlockable
  cases hd : Hex.decode l with
  | err => simp
  | panic => simp
  | ok s =>
    simp only [Res.ok.injEq, Bool.false_eq_true, false_and, or_false, false_or]
    by_cases c1 : s.length = 25 ∧ s[0]? = some 0x76 ∧ s[1]? = some 0xa9 ∧ s[2]? = some 0x14 ∧ s[23]? = some 0x88 ∧ s[24]? = some 0xac
    · rw [if_pos c1]
      obtain ⟨h, tail, h1, h2, rfl⟩ := (keyHash_shape s 25 (by omega)).mp c1
      have ht : tail = [] := List.length_eq_zero_iff.mp h2
      subst ht
      constructor
      · rintro ⟨v, hv⟩
        by_cases hr : r = []
        · exact Or.inl ⟨h, [], h1, rfl, rfl, hr⟩
        · rw [if_pos hr] at hv; cases hv
      · rintro (⟨h', tail, e1, rfl, e3, e4⟩ | ⟨h', tail, r', e1, rfl, e3, _⟩ | ⟨k, e1, e3, e4⟩)
        · rw [if_neg (by simpa using e4)]; exact ⟨_, rfl⟩
        · have := congrArg List.length e3; simp [p2pkhScript, p2shScript] at this; omega
        · have := congrArg List.length e3; simp [p2pkhScript, witnessV0Script, push] at this; omega
    rw [if_neg c1]
    have n1 : ¬ ∃ h tail, h.length = 20 ∧ tail = [] ∧ s = p2pkhScript h ++ tail ∧ r = [] := by
      rintro ⟨h, tail, h1, rfl, h2, -⟩
      exact c1 ((keyHash_shape s 25 (by omega)).mpr ⟨h, [], h1, rfl, h2⟩)
    by_cases c2 : s.length = 23 ∧ s[0]? = some 0xa9 ∧ s[1]? = some 0x14 ∧ s[22]? = some 0x87
    · rw [if_pos c2]
      obtain ⟨h, tail, h1, h2, rfl⟩ := (scriptHash_shape s 23 (by omega)).mp c2
      have ht : tail = [] := List.length_eq_zero_iff.mp h2
      subst ht
      cases hr : Hex.decode r with
      | ok r' =>
        simp only
        rw [ok_ite, spendable_shape]
        constructor
        · intro hk
          exact Or.inr (Or.inl ⟨h, [], r', h1, rfl, rfl, rfl, hk⟩)
        · rintro (hc | ⟨h', tail, r2, e1, rfl, e3, e4, e5⟩ | ⟨k, e1, e3, e4⟩)
          · exact absurd hc n1
          · cases e4; exact e5
          · have := congrArg List.length e3; simp [p2shScript, witnessV0Script, push] at this; omega
      | err =>
        simp only [reduceCtorEq, exists_false, false_iff, not_or]
        refine ⟨n1, by simp, ?_⟩
        rintro ⟨k, e1, e3, e4⟩
        have := congrArg List.length e3; simp [p2shScript, witnessV0Script, push] at this; omega
      | panic => exact absurd hr (Hex.decode_ne_panic _)
    rw [if_neg c2]
    by_cases c3 : s.length = 22 ∧ s[0]? = some 0x00 ∧ s[1]? = some 0x14
    · rw [if_pos c3]
      obtain ⟨k, h1, rfl⟩ := (program_shape s).mp c3
      constructor
      · rintro ⟨v, hv⟩
        by_cases hr : r = []
        · exact Or.inr (Or.inr ⟨k, h1, rfl, hr⟩)
        · rw [if_pos hr] at hv; cases hv
      · rintro (hc | ⟨h', tail, r', e1, rfl, e3, _⟩ | ⟨k', e1, e3, e4⟩)
        · exact absurd hc n1
        · exact absurd ((scriptHash_shape _ 23 (by omega)).mpr ⟨h', [], e1, rfl, e3⟩) c2
        · rw [if_neg (by simpa using e4)]; exact ⟨_, rfl⟩
    · rw [if_neg c3]
      simp only [reduceCtorEq, exists_false, false_iff, not_or]
      refine ⟨n1, ?_, ?_⟩
      · rintro ⟨h', tail, r', e1, rfl, e3, _⟩
        exact absurd ((scriptHash_shape _ 23 (by omega)).mpr ⟨h', [], e1, rfl, e3⟩) c2
      · rintro ⟨k, e1, e3, _⟩
        exact c3 ((program_shape s).mpr ⟨k, e1, e3⟩)

end Btc

namespace BtcVariants

theorem decodeBody_field {spare : Nat} {seg w : Bool} {v b : Bytes} {t : Tx} (h : decodeBody spare seg w v b = .ok t) : t.version = v := by
  have := decodeBody_version (v' := v) h
  rw [h] at this
  have := Res.ok.inj this
  rw [this]

theorem isSegwit_go_inv (V : Variant) (sw : Bool) : ∀ us : List TxUnlock, isSegwit.go V sw us = .err →
    ∃ u ∈ us, V.check u.lockScript u.redeemScript = .err
  | [], h => by simp [isSegwit.go] at h
  | u :: us, h => by
    unfold isSegwit.go at h
    cases hc : V.check u.lockScript u.redeemScript with
    | err => exact ⟨u, by simp, hc⟩
    | panic => rw [hc] at h; cases h
    | ok v =>
      obtain ⟨a, b, ty⟩ := v
      rw [hc] at h
      simp only [Res.bind_ok] at h
      split at h
      · cases h
      · obtain ⟨x, hx, hx'⟩ := isSegwit_go_inv V sw us h
        exact ⟨x, by simp [hx], hx'⟩

theorem insertLoop_kinds (V : Variant) (H : Hashes) (sw seg : Bool) (hashes : List TxHash) : ∀ (ins : List TxIn) (us : List TxUnlock) (idx : Nat)
    (o : Option (List TxIn)), ins.length = us.length → insertLoop V H sw seg hashes idx ins us = .ok o →
    (o = none → ∃ u ∈ us, V.check u.lockScript u.redeemScript = .err) ∧
    (o ≠ none → ∀ u ∈ us, ∃ v, V.check u.lockScript u.redeemScript = .ok v)
  | [], [], _, o, _, h => by
    unfold insertLoop at h
    cases h
    simp
  | i :: is, u :: us, idx, o, hl, h => by
    unfold insertLoop at h
    cases hc : V.check u.lockScript u.redeemScript with
    | err =>
      rw [hc] at h
      cases h
      exact ⟨fun _ => ⟨u, by simp, hc⟩, fun h => absurd rfl h⟩
    | panic => rw [hc] at h; cases h
    | ok v =>
      rw [hc] at h
      obtain ⟨a, b, ty⟩ := v
      obtain ⟨new, rest, hrest, h⟩ : ∃ new rest, insertLoop V H sw seg hashes (idx + 1) is us = .ok rest ∧ rest.map (new :: ·) = o := by
        cases ty <;> simp only at h <;> (try split at h) <;> simp only [Res.bind_eq_ok, Res.ok.injEq, reduceCtorEq, false_and, exists_false] at h
        all_goals first
          | (obtain ⟨_, _, _, _, new, _, rest, h1, h2⟩ := h; exact ⟨new, rest, h1, h2⟩)
          | (obtain ⟨new, _, rest, h1, h2⟩ := h; exact ⟨new, rest, h1, h2⟩)
      have hr := insertLoop_kinds V H sw seg hashes is us (idx + 1) rest (by simpa using hl) hrest
      cases h
      cases rest with
      | none =>
        obtain ⟨x, hx, hx'⟩ := hr.1 rfl
        exact ⟨fun _ => ⟨x, by simp [hx], hx'⟩, fun h => absurd rfl h⟩
      | some l =>
        refine ⟨fun h => by simp at h, fun _ x hx => ?_⟩
        rcases List.mem_cons.mp hx with rfl | hx
        · exact ⟨_, hc⟩
        · exact hr.2 (by simp) x hx
  | [], _ :: _, _, _, hl, _ => by simp at hl
  | _ :: _, [], _, _, hl, _ => by simp at hl

/-- Inserting returns the empty text exactly if an output is of an unknown kind, and otherwise bytes that begin with the version. -/
theorem insert_kinds (V : Variant) (H : Hashes) (txHex : Bytes) (hashes : List TxHash) (us : List TxUnlock) (sw : Bool) (out : Bytes)
    (h : insertSignatures V H txHex hashes us sw = .ok out) :
    (out = [] ∧ ∃ u ∈ us, V.check u.lockScript u.redeemScript = .err) ∨
    ((∀ u ∈ us, ∃ v, V.check u.lockScript u.redeemScript = .ok v) ∧
      ∃ txb b, Hex.decode txHex = .ok txb ∧ out = Hex.encode b ∧ b.take 4 = txb.take 4 ∧ leNat (b.take 4) = V.version ∧ 10 ≤ b.length) := by
  unfold insertSignatures at h
  obtain ⟨txb, hx, h⟩ := Res.bind_eq_ok.mp h
  obtain ⟨t, ht, h⟩ := Res.bind_eq_ok.mp h
  split at h
  · cases h
  rename_i hne
  simp only [not_or, not_not] at hne
  obtain ⟨u0, _, _, _, hlen⟩ := hne
  split at h
  · rename_i seg hseg
    split at h
    · cases h
    obtain ⟨o, ho, h⟩ := Res.bind_eq_ok.mp h
    have hk := insertLoop_kinds V H sw seg hashes t.vins us 0 o hlen ho
    cases o with
    | none => cases h; exact Or.inl ⟨rfl, hk.1 rfl⟩
    | some ins =>
      obtain ⟨r, hr, h⟩ := Res.bind_eq_ok.mp h
      cases h
      refine Or.inr ⟨hk.2 (by simp), txb, r, hx, rfl, ?_⟩
      have hv : t.version = txb.take 4 ∧ leNat t.version = V.version := by
        unfold decodeTxV at ht
        obtain ⟨⟨ver, b'⟩, h1, ht⟩ := Res.bind_eq_ok.mp ht
        unfold takeN at h1
        split at h1
        · cases h1
        cases h1
        simp only at ht
        split at ht
        · cases ht
        rename_i hv
        split at ht
        · cases ht
        have : t.version = txb.take 4 := by
          split at ht
          · split at ht
            · cases ht
            · exact decodeBody_field ht
          · exact decodeBody_field ht
        exact ⟨this, by rw [this]; simpa using hv⟩
      unfold encodeTx at hr
      split at hr
      · cases hr
      rename_i h4
      simp only [not_or, not_not] at h4
      obtain ⟨_, _, v4, l4⟩ := h4
      obtain ⟨a, _, hr⟩ := Res.bind_eq_ok.mp hr
      obtain ⟨b, _, hr⟩ := Res.bind_eq_ok.mp hr
      obtain ⟨c, hr⟩ : ∃ c, t.version ++ (if seg then [0x00, 0x01] else []) ++ [UInt8.ofNat ins.length] ++ a ++
          [UInt8.ofNat t.vouts.length] ++ b ++ c ++ t.lockTime = r := by
        cases seg
        · exact ⟨[], Res.ok.inj hr⟩
        · obtain ⟨c, _, hr⟩ := Res.bind_eq_ok.mp hr
          exact ⟨c, Res.ok.inj hr⟩
      subst hr
      have e4 : List.take 4 (t.version ++ ((if seg then [0x00, 0x01] else []) ++ ([UInt8.ofNat ins.length] ++ (a ++
          ([UInt8.ofNat t.vouts.length] ++ (b ++ (c ++ t.lockTime))))))) = t.version := by
        rw [List.take_append_of_le_length (by omega), List.take_of_length_le (by omega)]
      simp only [List.append_assoc]
      rw [e4]
      refine ⟨hv.1, hv.2, ?_⟩
      simp only [List.length_append, List.length_singleton]
      omega
  · rename_i hseg
    cases h
    refine Or.inl ⟨rfl, ?_⟩
    cases us with
    | nil => exact absurd rfl u0
    | cons u us => exact isSegwit_go_inv V sw (u :: us) hseg
  · cases h

theorem checkBch_iff (l r : Bytes) : (∃ v, checkBch l r = .ok v) ↔ Unlockable false true l r := by
  have hu : Unlockable false true l r ↔ Unlockable false false l r ∨ ∃ h, h.length = 20 ∧ Hex.decode l = .ok (p2pkhScript h) := by
    unfold Unlockable
    simp only [Bool.false_eq_true, false_and, or_false, true_or, and_true, false_or]
    constructor
    · rintro (⟨h, tail, h1, rfl, h2⟩ | h | h)
      · exact Or.inr ⟨h, h1, by simpa using h2⟩
      · exact Or.inl (Or.inr (Or.inl h))
      · exact Or.inl (Or.inr (Or.inr h))
    · rintro ((⟨h, tail, h1, h2, h3, _⟩ | h | h) | ⟨h, h1, h2⟩)
      · exact Or.inl ⟨h, tail, h1, h2, h3⟩
      · exact Or.inr (Or.inl h)
      · exact Or.inr (Or.inr h)
      · exact Or.inl ⟨h, [], h1, rfl, by simpa using h2⟩
  rw [hu, ← check_iff]
  unfold checkBch checkScriptType
  cases hd : Hex.decode l with
  | err => simp
  | panic => simp
  | ok s =>
    simp only
    by_cases c1 : s.length = 25 ∧ s[0]? = some 0x76 ∧ s[1]? = some 0xa9 ∧ s[2]? = some 0x14 ∧ s[23]? = some 0x88 ∧ s[24]? = some 0xac
    · rw [if_pos c1]
      obtain ⟨h, tail, h1, h2, rfl⟩ := (keyHash_shape s 25 (by omega)).mp c1
      have ht : tail = [] := List.length_eq_zero_iff.mp h2
      subst ht
      exact ⟨fun _ => Or.inr ⟨h, h1, by simp⟩, fun _ => ⟨_, rfl⟩⟩
    · rw [if_neg c1, if_neg c1]
      constructor
      · exact fun h => Or.inl h
      · rintro (h | ⟨h, h1, h2⟩)
        · exact h
        · exact absurd ((keyHash_shape s 25 (by omega)).mpr ⟨h, [], h1, rfl, by simpa using Res.ok.inj h2⟩) c1

theorem checkCxc_iff (l r : Bytes) : (∃ v, checkCxc l r = .ok v) ↔ Unlockable true false l r := by
  have hu : Unlockable true false l r ↔ Unlockable false false l r ∨
      (∃ h tail, h.length = 20 ∧ tail.length = 30 ∧ Hex.decode l = .ok (p2pkhScript h ++ tail) ∧ r = []) ∨
      (∃ h tail r', h.length = 20 ∧ tail.length = 30 ∧ Hex.decode l = .ok (p2shScript h ++ tail) ∧ Hex.decode r = .ok r' ∧
        ((∃ k, k.length = 20 ∧ r' = witnessV0Script k) ∨ (37 ≤ r'.length ∧ r'.getLast? = some 0xae))) := by
    unfold Unlockable
    simp only [Bool.false_eq_true, false_and, or_false, true_and, false_or]
    constructor
    · rintro (⟨h, tail, h1, h2 | h2, h3⟩ | ⟨h, tail, r', h1, h2 | h2, h3⟩ | h)
      · exact Or.inl (Or.inl ⟨h, tail, h1, h2, h3⟩)
      · exact Or.inr (Or.inl ⟨h, tail, h1, h2, h3⟩)
      · exact Or.inl (Or.inr (Or.inl ⟨h, tail, r', h1, h2, h3⟩))
      · exact Or.inr (Or.inr ⟨h, tail, r', h1, h2, h3⟩)
      · exact Or.inl (Or.inr (Or.inr h))
    · rintro ((⟨h, tail, h1, h2, h3⟩ | ⟨h, tail, r', h1, h2, h3⟩ | h) | ⟨h, tail, h1, h2, h3⟩ | ⟨h, tail, r', h1, h2, h3⟩)
      · exact Or.inl ⟨h, tail, h1, Or.inl h2, h3⟩
      · exact Or.inr (Or.inl ⟨h, tail, r', h1, Or.inl h2, h3⟩)
      · exact Or.inr (Or.inr h)
      · exact Or.inl ⟨h, tail, h1, Or.inr h2, h3⟩
      · exact Or.inr (Or.inl ⟨h, tail, r', h1, Or.inr h2, h3⟩)
  rw [hu, ← check_iff]
  unfold checkCxc checkScriptType
  cases hd : Hex.decode l with
  | err => simp
  | panic => simp
  | ok s =>
    simp only [Res.ok.injEq]
    by_cases d1 : s.length = 55 ∧ s[0]? = some 0x76 ∧ s[1]? = some 0xa9 ∧ s[2]? = some 0x14 ∧ s[23]? = some 0x88 ∧ s[24]? = some 0xac
    · obtain ⟨h, tail, h1, h2, e⟩ := (keyHash_shape s 55 (by omega)).mp d1
      have k1 : ¬ (s.length = 25 ∧ s[0]? = some 0x76 ∧ s[1]? = some 0xa9 ∧ s[2]? = some 0x14 ∧ s[23]? = some 0x88 ∧ s[24]? = some 0xac) := by
        rintro ⟨h, _⟩; omega
      have k2 : ¬ (s.length = 23 ∧ s[0]? = some 0xa9 ∧ s[1]? = some 0x14 ∧ s[22]? = some 0x87) := by rintro ⟨h, _⟩; omega
      have k3 : ¬ (s.length = 22 ∧ s[0]? = some 0x00 ∧ s[1]? = some 0x14) := by rintro ⟨h, _⟩; omega
      rw [if_pos ⟨Or.inr d1.1, d1.2⟩, if_neg k1, if_neg k2, if_neg k3]
      simp only [reduceCtorEq, exists_false, false_or]
      constructor
      · rintro ⟨v, hv⟩
        by_cases hr : r = []
        · exact Or.inl ⟨h, tail, h1, h2, e, hr⟩
        · rw [if_pos hr] at hv; cases hv
      · rintro (⟨_, _, _, _, _, e4⟩ | ⟨h', tail', r', e1, e2, e3, _⟩)
        · rw [if_neg (by simpa using e4)]; exact ⟨_, rfl⟩
        · have := congrArg List.length e3
          simp [p2shScript] at this
          omega
    · have m1 : ¬ ∃ h tail, h.length = 20 ∧ tail.length = 30 ∧ s = p2pkhScript h ++ tail ∧ r = [] := by
        rintro ⟨h, tail, h1, h2, h3, _⟩
        exact d1 ((keyHash_shape s 55 (by omega)).mpr ⟨h, tail, h1, by omega, h3⟩)
      by_cases d2 : s.length = 53 ∧ s[0]? = some 0xa9 ∧ s[1]? = some 0x14 ∧ s[22]? = some 0x87
      · obtain ⟨h, tail, h1, h2, e⟩ := (scriptHash_shape s 53 (by omega)).mp d2
        rw [if_neg (by rintro ⟨h | h, _⟩ <;> omega), if_pos ⟨Or.inr d2.1, d2.2⟩, if_neg (by rintro ⟨h, _⟩; omega), if_neg (by rintro ⟨h, _⟩; omega),
          if_neg (by rintro ⟨h, _⟩; omega)]
        simp only [reduceCtorEq, exists_false, false_or]
        cases hr : Hex.decode r with
        | ok r' =>
          simp only
          rw [ok_ite, spendable_shape]
          constructor
          · intro hk
            exact Or.inr ⟨h, tail, r', h1, h2, e, rfl, hk⟩
          · rintro (hc | ⟨_, _, r2, _, _, _, e4, e5⟩)
            · exact absurd hc m1
            · cases e4; exact e5
        | err =>
          simp only [reduceCtorEq, exists_false, false_iff, not_or]
          exact ⟨m1, by simp⟩
        | panic => exact absurd hr (Hex.decode_ne_panic _)
      · have m2 : ¬ ∃ h tail r', h.length = 20 ∧ tail.length = 30 ∧ s = p2shScript h ++ tail ∧ Hex.decode r = .ok r' ∧
            ((∃ k, k.length = 20 ∧ r' = witnessV0Script k) ∨ (37 ≤ r'.length ∧ r'.getLast? = some 0xae)) := by
          rintro ⟨h, tail, _, h1, h2, h3, _⟩
          exact d2 ((scriptHash_shape s 53 (by omega)).mpr ⟨h, tail, h1, by omega, h3⟩)
        have f1 : ((s.length = 25 ∨ s.length = 55) ∧ s[0]? = some 0x76 ∧ s[1]? = some 0xa9 ∧ s[2]? = some 0x14 ∧ s[23]? = some 0x88 ∧ s[24]? = some 0xac) ↔
            (s.length = 25 ∧ s[0]? = some 0x76 ∧ s[1]? = some 0xa9 ∧ s[2]? = some 0x14 ∧ s[23]? = some 0x88 ∧ s[24]? = some 0xac) := by
          constructor
          · rintro ⟨h | h, h'⟩
            · exact ⟨h, h'⟩
            · exact absurd ⟨h, h'⟩ d1
          · rintro ⟨h, h'⟩; exact ⟨Or.inl h, h'⟩
        have f2 : ((s.length = 23 ∨ s.length = 53) ∧ s[0]? = some 0xa9 ∧ s[1]? = some 0x14 ∧ s[22]? = some 0x87) ↔
            (s.length = 23 ∧ s[0]? = some 0xa9 ∧ s[1]? = some 0x14 ∧ s[22]? = some 0x87) := by
          constructor
          · rintro ⟨h | h, h'⟩
            · exact ⟨h, h'⟩
            · exact absurd ⟨h, h'⟩ d2
          · rintro ⟨h, h'⟩; exact ⟨Or.inl h, h'⟩
        simp only [f1, f2]
        constructor
        · exact fun h => Or.inl h
        · rintro (h | h | h)
          · exact h
          · exact absurd h m1
          · exact absurd h m2

theorem insert_exact (V : Variant) (asset loose : Bool) (hV : ∀ l r, (∃ v, V.check l r = .ok v) ↔ Unlockable asset loose l r)
    (H : Hashes) (txHex : Bytes) (hashes : List TxHash) (us : List TxUnlock) (sw : Bool) (out : Bytes)
    (h : insertSignatures V H txHex hashes us sw = .ok out) :
    (out = [] ↔ ∃ u ∈ us, ¬ Unlockable asset loose u.lockScript u.redeemScript) ∧
    (out ≠ [] → ∃ txb b, Hex.decode txHex = .ok txb ∧ out = Hex.encode b ∧ b.take 4 = txb.take 4 ∧ leNat (b.take 4) = V.version ∧ 10 ≤ b.length) := by
  rcases insert_kinds V H txHex hashes us sw out h with ⟨rfl, u, hu, he⟩ | ⟨hall, txb, b, h1, rfl, h3, h4, h5⟩
  · refine ⟨⟨fun _ => ⟨u, hu, ?_⟩, fun _ => rfl⟩, fun h => absurd rfl h⟩
    rw [← hV, he]
    simp
  · have hne : Hex.encode b ≠ [] := by
      intro hc
      have := congrArg List.length hc
      rw [Hex.encode_length, List.length_nil] at this
      omega
    refine ⟨⟨fun hc => absurd hc hne, ?_⟩, fun _ => ⟨txb, b, h1, rfl, h3, h4, h5⟩⟩
    rintro ⟨u, hu, hn⟩
    exact absurd ((hV _ _).mp (hall u hu)) hn

theorem isSegwit_hc (sw : Bool) (us : List TxUnlock) : isSegwit hc sw us = Btc.isSegwit sw us := by
  have hgo : ∀ us, isSegwit.go hc sw us = Btc.isSegwit.go sw us := by
    intro us
    induction us with
    | nil => rfl
    | cons u us ih =>
      unfold isSegwit.go Btc.isSegwit.go
      rw [ih]
      rfl
  cases us with
  | nil => rfl
  | cons u us => exact hgo _

theorem insertLoop_hc (H : Hashes) (sw seg : Bool) (hashes : List TxHash) : ∀ (ins : List TxIn) (us : List TxUnlock) (idx : Nat),
    insertLoop hc H sw seg hashes idx ins us = Btc.insertLoop H sw seg hashes idx ins us
  | [], _, _ => by unfold insertLoop Btc.insertLoop; rfl
  | _ :: _, [], _ => rfl
  | i :: is, u :: us, idx => by
    unfold insertLoop Btc.insertLoop
    rw [insertLoop_hc H sw seg hashes is us (idx + 1)]
    rfl

/-- The function of the package `hcTransaction` is that of `btcTransaction`. -/
theorem insert_hc (H : Hashes) (txHex : Bytes) (hashes : List TxHash) (us : List TxUnlock) (sw : Bool) :
    insertSignatures hc H txHex hashes us sw = Btc.insertSignatures H txHex hashes us sw := by
  unfold insertSignatures Btc.insertSignatures
  simp only [isSegwit_hc, insertLoop_hc]
  rfl

end BtcVariants

/-- C62, the exact part that holds, for the package of Bitcoin: a call without an error returns the empty text exactly if some output to spend is
not of a known kind; any other result is a text of bytes beginning with the version of the given transaction. -/
theorem C62_kinds_partial (H : Hashes) (txHex : Bytes) (hashes : List TxHash) (us : List TxUnlock) (segwitOn : Bool) (out : Bytes)
    (h : Btc.insertSignatures H txHex hashes us segwitOn = .ok out) :
    (out = [] ↔ ∃ u ∈ us, ¬ Unlockable false false u.lockScript u.redeemScript) ∧
    (out ≠ [] → ∃ txb b, Hex.decode txHex = .ok txb ∧ out = Hex.encode b ∧ b.take 4 = txb.take 4 ∧ leNat (b.take 4) = 2 ∧ 10 ≤ b.length) :=
  insert_exact hc false false check_iff H txHex hashes us segwitOn out (by rw [insert_hc]; exact h)

/-- C62, the same for the derived packages: Bitcoin Cash and SV, CXC (where asset data may follow), and Horizen, which never returns the empty text. -/
theorem C62_variants_partial (H : Hashes) (txHex : Bytes) (hashes : List TxHash) (us : List TxUnlock) (segwitOn : Bool) (out : Bytes) :
    (∀ V, V = bch ∨ V = bsv → BtcVariants.insertSignatures V H txHex hashes us segwitOn = .ok out →
      (out = [] ↔ ∃ u ∈ us, ¬ Unlockable false true u.lockScript u.redeemScript) ∧
      (out ≠ [] → ∃ txb b, Hex.decode txHex = .ok txb ∧ out = Hex.encode b ∧ b.take 4 = txb.take 4 ∧ leNat (b.take 4) = 1 ∧ 10 ≤ b.length)) ∧
    (BtcVariants.insertSignatures cxc H txHex hashes us segwitOn = .ok out →
      (out = [] ↔ ∃ u ∈ us, ¬ Unlockable true false u.lockScript u.redeemScript) ∧
      (out ≠ [] → ∃ txb b, Hex.decode txHex = .ok txb ∧ out = Hex.encode b ∧ b.take 4 = txb.take 4 ∧ leNat (b.take 4) = 1 ∧ 10 ≤ b.length)) ∧
    (BtcVariants.insertSignatures zen H txHex hashes us segwitOn = .ok out → out ≠ [] ∧
      ∃ txb b, Hex.decode txHex = .ok txb ∧ out = Hex.encode b ∧ b.take 4 = txb.take 4 ∧ leNat (b.take 4) = 1 ∧ 10 ≤ b.length) := by
  refine ⟨?_, insert_exact cxc true false checkCxc_iff H txHex hashes us segwitOn out, ?_⟩
  · rintro V (rfl | rfl)
    · exact insert_exact bch false true checkBch_iff H txHex hashes us segwitOn out
    · exact insert_exact bsv false true checkBch_iff H txHex hashes us segwitOn out
  · intro h
    rcases insert_kinds zen H txHex hashes us segwitOn out h with ⟨rfl, u, hu, he⟩ | ⟨_, txb, b, h1, rfl, h3, h4, h5⟩
    · cases he
    · refine ⟨?_, txb, b, h1, rfl, h3, h4, h5⟩
      intro hc
      have := congrArg List.length hc
      rw [Hex.encode_length, List.length_nil] at this
      omega

-- the hypotheses can be met: see the example beside `C123_variants_partial`; here with an output of an unknown kind
example : Btc.insertSignatures toyHashes (Hex.encode (demoTxN 1).ser) [⟨[], 0, none, []⟩] [⟨asc "6a00", [], 0, 1⟩] false = .ok [] := by
  decide +kernel

end Verif
