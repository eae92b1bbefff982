import Verif.Model.Filenet
import Verif.Spec.Filenet
import Verif.Lemmas.BtcTx
import Verif.Props.Base58

/-! Lemmas about `filenetTransaction`. -/

namespace Verif.Filenet
open Verif Verif.Spec.Filenet

theorem alphabet_ok : Spec.IsAlphabet Btc.alphabet := ⟨by decide +kernel, by decide +kernel⟩

theorem isBase58_unique {b s t : Bytes} (h : Spec.IsBase58 Btc.alphabet b s) (h' : Spec.IsBase58 Btc.alphabet b t) : s = t := by
  unfold Spec.IsBase58 at h h'
  exact List.map_injective_iff.mpr (Option.some_injective _) (h.trans h'.symm)

theorem encode58_iff (b t : Bytes) : Base58.encode Btc.alphabet b = .ok t ↔ Spec.IsBase58 Btc.alphabet b t := by
  obtain ⟨s, h1, h2, _⟩ := C01_base58_roundtrip Btc.alphabet alphabet_ok b
  constructor
  · intro h; rw [h1] at h; cases h; exact h2
  · intro h; rw [isBase58_unique h h2]; exact h1

theorem decode58_iff (b t : Bytes) : Base58.decode Btc.alphabet t = .ok b ↔ Spec.IsBase58 Btc.alphabet b t := by
  constructor
  · intro h; exact (encode58_iff b t).mp (C02_base58_canonical _ alphabet_ok _ _ h)
  · intro h
    obtain ⟨s, _, h2, h3⟩ := C01_base58_roundtrip Btc.alphabet alphabet_ok b
    rw [isBase58_unique h h2]; exact h3

theorem encodeAddress_iff (h t : Bytes) : encodeAddress h = .ok t ↔ IsAddress h t := by
  unfold encodeAddress IsAddress
  by_cases hl : h.length = 20
  · rw [if_neg (by simpa using hl), encode58_iff]
    exact ⟨fun e => ⟨hl, e⟩, fun e => e.2⟩
  · rw [if_pos hl]
    exact Iff.intro (fun e => nomatch e) (fun e => absurd e.1 hl)

theorem exists_address {h : Bytes} (hl : h.length = 20) : ∃ t, encodeAddress h = .ok t ∧ IsAddress h t := by
  obtain ⟨t, _, h2, _⟩ := C01_base58_roundtrip Btc.alphabet alphabet_ok (Hex.encode h)
  exact ⟨t, (encodeAddress_iff h t).mpr ⟨hl, h2⟩, hl, h2⟩

theorem isAddress_text_unique {h s t : Bytes} (hs : IsAddress h s) (ht : IsAddress h t) : s = t := isBase58_unique hs.2 ht.2

/-- What `decodeAddress` accepts: Base58 of any hex text of 20 bytes, in lower or upper case. -/
theorem decodeAddress_iff (a h : Bytes) : decodeAddress a = .ok h ↔
    h.length = 20 ∧ ∃ x, Hex.decode x = .ok h ∧ Spec.IsBase58 Btc.alphabet x a := by
  unfold decodeAddress
  constructor
  · intro e
    obtain ⟨x, hx, e⟩ := Res.bind_eq_ok.mp e
    obtain ⟨y, hy, e⟩ := Res.bind_eq_ok.mp e
    split at e
    · cases e
    · rename_i hl
      cases e
      exact ⟨by simpa using hl, x, hy, (decode58_iff x a).mp hx⟩
  · rintro ⟨hl, x, hx, ha⟩
    rw [(decode58_iff x a).mpr ha, Res.bind_ok, hx, Res.bind_ok, if_neg (by simpa using hl)]

theorem decodeAddress_of {a h : Bytes} (ha : IsAddress h a) : decodeAddress a = .ok h :=
  (decodeAddress_iff a h).mpr ⟨ha.1, _, Hex.decode_encode h, ha.2⟩

/-- Total of the amounts. -/
def sum (os : List Vout) : Nat := (os.map fun o => o.amount.toNat).sum

theorem payments_iff : ∀ (os : List Vout) (total t : UInt64) (l : List (Bytes × UInt64)), payments os total = .ok (t, l) ↔
    (∀ o ∈ os, o.address ≠ [] ∧ o.amount ≠ 0) ∧ List.Forall₂ (fun o p => decodeAddress o.address = .ok p.1 ∧ p.2 = o.amount) os l ∧
      t.toNat = (total.toNat + sum os) % 2 ^ 64
  | [], total, t, l => by
    unfold payments sum
    constructor
    · intro h; cases h
      exact ⟨by simp, .nil, by simp [Nat.mod_eq_of_lt total.toNat_lt]⟩
    · rintro ⟨_, h, ht⟩
      cases h
      have : t = total := by
        apply UInt64.toNat_inj.mp
        rw [ht]
        simp [Nat.mod_eq_of_lt total.toNat_lt]
      rw [this]
  | o :: os, total, t, l => by
    unfold payments
    have hs : sum (o :: os) = o.amount.toNat + sum os := by unfold sum; simp
    constructor
    · intro h
      split at h
      · cases h
      rename_i ha
      split at h
      · cases h
      rename_i hm
      obtain ⟨b, hb, h⟩ := Res.bind_eq_ok.mp h
      obtain ⟨⟨t', l'⟩, hp, h⟩ := Res.bind_eq_ok.mp h
      cases h
      obtain ⟨h1, h2, h3⟩ := (payments_iff os _ _ _).mp hp
      refine ⟨List.forall_mem_cons.mpr ⟨⟨ha, hm⟩, h1⟩, .cons ⟨hb, rfl⟩ h2, ?_⟩
      rw [h3, hs, UInt64.toNat_add]
      omega
    · rintro ⟨h1, h2, h3⟩
      obtain ⟨⟨ha, hm⟩, h1⟩ := List.forall_mem_cons.mp h1
      cases h2 with
      | cons hb h2 =>
        rename_i p l
        rw [if_neg ha, if_neg hm, hb.1, Res.bind_ok, (payments_iff os _ t l).mpr ⟨h1, h2, ?_⟩, Res.bind_ok, ← hb.2]
        rw [h3, hs, UInt64.toNat_add]
        omega

theorem readDetails_iff : ∀ (n : Nat) (b r : Bytes) (l : List (Bytes × UInt64)), readDetails n b = .ok (l, r) ↔
    ∃ outs : List (Bytes × Nat), outs.length = n ∧ b = (outs.flatMap fun o => o.1 ++ leBytes 8 o.2) ++ r ∧
      (∀ o ∈ outs, o.1.length = 20 ∧ o.2 < 2 ^ 64) ∧ List.Forall₂ (fun d o => IsAddress o.1 d.1 ∧ d.2.toNat = o.2) l outs
  | 0, b, r, l => by
    unfold readDetails
    constructor
    · intro h; cases h; exact ⟨[], rfl, rfl, by simp, .nil⟩
    · rintro ⟨outs, h1, h2, _, h4⟩
      rw [List.length_eq_zero_iff] at h1
      subst h1
      cases h4
      rw [h2]; rfl
  | n + 1, b, r, l => by
    unfold readDetails
    constructor
    · intro h
      obtain ⟨⟨p, b'⟩, hp, h⟩ := Res.bind_eq_ok.mp h
      obtain ⟨a, ha, h⟩ := Res.bind_eq_ok.mp h
      obtain ⟨⟨l', r'⟩, hr, h⟩ := Res.bind_eq_ok.mp h
      cases h
      obtain ⟨outs, h1, h2, h3, h4⟩ := (readDetails_iff n _ _ _).mp hr
      unfold Btc.takeN at hp
      split at hp
      · cases hp
      rename_i hlen
      cases hp
      have hlen : 28 ≤ b.length := Nat.le_of_not_lt hlen
      have hp8 : ((b.take 28).drop 20).length = 8 := by simp; omega
      have hlt : leNat ((b.take 28).drop 20) < 2 ^ 64 := by
        have := leNat_lt ((b.take 28).drop 20)
        rw [hp8] at this
        exact this
      have ha' := (encodeAddress_iff _ _).mp ha
      refine ⟨((b.take 28).take 20, leNat ((b.take 28).drop 20)) :: outs, by simp [h1], ?_, List.forall_mem_cons.mpr ⟨⟨ha'.1, hlt⟩, h3⟩,
        .cons ⟨ha', UInt64.toNat_ofNat_of_lt' hlt⟩ h4⟩
      rw [List.flatMap_cons, List.append_assoc, ← h2]
      have : leBytes 8 (leNat ((b.take 28).drop 20)) = (b.take 28).drop 20 := by
        rw [← hp8, leBytes_leNat]
      simp only [this, List.take_append_drop]
    · rintro ⟨outs, h1, h2, h3, h4⟩
      match outs, h1 with
      | o :: os, h1 =>
        obtain ⟨⟨lo, vo⟩, h3⟩ := List.forall_mem_cons.mp h3
        cases h4 with
        | cons hd h4 =>
          rename_i d l
          rw [h2, List.flatMap_cons, List.append_assoc, Btc.takeN_append _ _ (by simp [lo]), Res.bind_ok]
          simp only
          rw [List.take_left' lo, List.drop_left' lo, (encodeAddress_iff _ _).mpr hd.1, Res.bind_ok,
            (readDetails_iff n _ r l).mpr ⟨os, by simpa using h1, rfl, h3, h4⟩, Res.bind_ok, leNat_leBytes_of_lt (by simpa using vo), ← hd.2,
            UInt64.ofNat_toNat]

/-- Decoding accepts exactly the wire forms. -/
theorem decodeRaw_iff (H : Hashes) (mem : Nat) (text sig : Bytes) (tr : Transfer) : decodeRaw H mem text sig = .ok tr ↔
    ∃ t : Tx, t.Fits ∧ t.outs.length ≤ mem ∧ Hex.decode text = .ok t.wire ∧ sig.length = 128 ∧ (∃ s, Hex.decode sig = .ok s) ∧
      tr.txId = Hex.encode (H.hash .sha256 t.wire) ∧ IsAddress t.from_ tr.from_ ∧ tr.toCount.toNat = t.outs.length ∧
      tr.value.toNat = t.total ∧ tr.timestamp.toNat = t.time ∧
      List.Forall₂ (fun d o => IsAddress o.1 d.1 ∧ d.2.toNat = o.2) tr.details t.outs ∧ tr.sign = sig := by
  unfold decodeRaw
  constructor
  · intro h
    obtain ⟨tx, htx, h⟩ := Res.bind_eq_ok.mp h
    split at h
    · cases h
    obtain ⟨⟨f, b1⟩, hf, h⟩ := Res.bind_eq_ok.mp h
    obtain ⟨fa, hfa, h⟩ := Res.bind_eq_ok.mp h
    obtain ⟨⟨c, b2⟩, hc, h⟩ := Res.bind_eq_ok.mp h
    obtain ⟨⟨v, b3⟩, hv, h⟩ := Res.bind_eq_ok.mp h
    obtain ⟨⟨t, b4⟩, ht, h⟩ := Res.bind_eq_ok.mp h
    by_cases hmem : leNat c > mem
    · simp only [if_pos hmem] at h
      cases h
    simp only [if_neg hmem] at h
    obtain ⟨⟨d, b5⟩, hd, h⟩ := Res.bind_eq_ok.mp h
    split at h
    · cases h
    rename_i hb5
    split at h
    · cases h
    rename_i hsl
    obtain ⟨s, hs, h⟩ := Res.bind_eq_ok.mp h
    cases h
    have split_ : ∀ {n : Nat} {x y z : Bytes}, Btc.takeN n x = .ok (y, z) → y.length = n ∧ x = y ++ z := by
      intro n x y z e
      unfold Btc.takeN at e
      split at e
      · cases e
      · cases e
        exact ⟨by simp; omega, (List.take_append_drop n x).symm⟩
    obtain ⟨lf, rfl⟩ := split_ hf
    obtain ⟨lc, rfl⟩ := split_ hc
    obtain ⟨lv, rfl⟩ := split_ hv
    obtain ⟨lt, rfl⟩ := split_ ht
    obtain ⟨outs, o1, o2, o3, o4⟩ := (readDetails_iff _ _ _ _).mp hd
    have hb5 : b5 = [] := by simpa using hb5
    subst hb5
    have lt8 : ∀ {x : Bytes}, x.length = 8 → leNat x < 2 ^ 64 ∧ leBytes 8 (leNat x) = x := by
      intro x hx
      have := leNat_lt x
      rw [hx] at this
      exact ⟨this, by rw [← hx, leBytes_leNat]⟩
    refine ⟨⟨f, leNat v, leNat t, outs⟩, ⟨lf, by rw [o1]; exact (lt8 lc).1, (lt8 lv).1, (lt8 lt).1, o3⟩, by rw [o1]; omega, ?_,
      by simpa using hsl, ⟨s, hs⟩, ?_, (encodeAddress_iff _ _).mp hfa, ?_, ?_, ?_, o4, rfl⟩
    · rw [htx]
      unfold Tx.wire
      simp only [o1, (lt8 lc).2, (lt8 lv).2, (lt8 lt).2, o2, List.append_nil, List.append_assoc]
    · unfold Tx.wire
      simp only [o1, (lt8 lc).2, (lt8 lv).2, (lt8 lt).2, o2, List.append_nil, List.append_assoc]
    · simp only [UInt64.toNat_ofNat_of_lt' (lt8 lc).1, o1]
    · simp only [UInt64.toNat_ofNat_of_lt' (lt8 lv).1]
    · simp only [UInt64.toNat_ofNat_of_lt' (lt8 lt).1]
  · rintro ⟨t, ⟨f1, f2, f3, f4, f5⟩, hm, htx, hsl, ⟨s, hs⟩, e1, e2, e3, e4, e5, e6, e7⟩
    rw [htx, Res.bind_ok]
    have hne : ¬ t.wire.length = 0 := by unfold Tx.wire; simp
    rw [if_neg hne, ← e1]
    unfold Tx.wire
    simp only [List.append_assoc]
    rw [Btc.takeN_append _ _ f1, Res.bind_ok]
    simp only
    rw [(encodeAddress_iff _ _).mpr e2, Res.bind_ok, Btc.takeN_append _ _ (by simp), Res.bind_ok]
    simp only
    rw [Btc.takeN_append _ _ (by simp), Res.bind_ok]
    simp only
    rw [Btc.takeN_append _ _ (by simp), Res.bind_ok]
    simp only
    rw [leNat_leBytes_of_lt (by simpa using f2), leNat_leBytes_of_lt (by simpa using f3), leNat_leBytes_of_lt (by simpa using f4),
      if_neg (by omega), (readDetails_iff t.outs.length _ [] tr.details).mpr ⟨t.outs, rfl, by simp, f5, e6⟩, Res.bind_ok]
    simp only [ne_eq, not_true_eq_false, if_false, hsl]
    rw [hs, Res.bind_ok, ← e3, ← e4, ← e5, ← e7]
    simp only [UInt64.ofNat_toNat]

end Verif.Filenet
