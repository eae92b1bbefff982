import Verif.Model.Bech32mText
import Verif.Lemmas.Hex
import Verif.Lemmas.Bech32m

/-! Lemmas for Props/Bech32mText.lean. -/

namespace Verif.Bech32m
open Verif Verif.Spec

/-- On ASCII texts case conversion goes character by character. -/
theorem mapText_ascii (f : UInt8 → UInt8) (g : Bytes → Bytes) : ∀ (n : Nat) (s : Bytes), s.length ≤ n → Ascii s →
    mapText f g n s = s.map f
  | 0, s, h, _ => by
    have : s = [] := List.length_eq_zero_iff.mp (by omega)
    subst this; rfl
  | n + 1, [], _, _ => rfl
  | n + 1, b :: r, h, ha => by
    rw [mapText, if_pos (ha b (by simp)),
      mapText_ascii f g n r (by simpa using h) (fun x hx => ha x (by simp [hx])), List.map_cons]

theorem decode_lower (s charset : Bytes) : decode s charset =
    (if s.length > 90 then .err
     else if s.map toLower ≠ s ∧ s.map toUpper ≠ s then .err
     else decodeLower (s.map toLower) charset) := rfl

theorem decodeText_ascii (T : CaseTable) {s : Bytes} (h : Ascii s) (charset : Bytes) : decodeText T s charset = decode s charset := by
  rw [decode_lower, decodeText, lowerText, upperText, mapText_ascii _ _ _ _ le_rfl h, mapText_ascii _ _ _ _ le_rfl h]

theorem bech32mDecodeText_ascii (T : CaseTable) {s : Bytes} (h : Ascii s) (hrp charset : Bytes) :
    bech32mDecodeText T s hrp charset = bech32mDecode s hrp charset := by
  rw [bech32mDecodeText, bech32mDecode, decodeText_ascii T h]

theorem revAll_ascii {charset : Bytes} (hc : Ascii charset) : ∀ {d : Bytes} {vs : List Nat}, revAll charset d = some vs → Ascii d
  | [], _, _ => by intro b hb; simp at hb
  | c :: cs, vs, h => by
    unfold revAll at h
    split at h
    · rename_i v w h1 h2
      intro b hb
      rcases List.mem_cons.mp hb with rfl | hb
      · split_ifs at h1 with hm
        exact hc _ hm
      · exact revAll_ascii hc h2 b hb
    · cases h

theorem u8_lt_128 {b : UInt8} (h : b ≤ 126) : b < 0x80 := by
  rw [UInt8.le_iff_toNat_le] at h
  rw [UInt8.lt_iff_toNat_lt]
  have : (126 : UInt8).toNat = 126 := rfl
  have : (0x80 : UInt8).toNat = 128 := rfl
  omega

/-- What `Decode` accepts in lower case is ASCII. -/
theorem decodeLower_ascii {s charset : Bytes} (hc : Ascii charset) {r : Bytes × List Nat × Spec}
    (h : decodeLower s charset = .ok r) : Ascii s := by
  unfold decodeLower at h
  split at h
  · cases h
  · rename_i pos hp
    split_ifs at h with h1 h2
    dsimp only at h
    by_cases h3 : (s.take pos).any (fun c => c < 33 || c > 126) = true
    · rw [if_pos h3] at h; cases h
    rw [if_neg h3] at h
    split at h
    · cases h
    · rename_i data hd
      have hsep : s[pos]? = some 0x31 := by
        unfold lastSep at hp
        split_ifs at hp with hm
        cases hp
        have hi : s.reverse.idxOf 0x31 < s.reverse.length := List.idxOf_lt_length_of_mem (by simpa using hm)
        have := List.getElem_idxOf hi
        rw [List.getElem_reverse] at this
        rw [List.getElem?_eq_getElem (by simp at hi; omega)]
        simp only [this]
      have hs : s = s.take pos ++ 0x31 :: s.drop (pos + 1) := by
        have hl : pos < s.length := by
          by_contra hn
          rw [List.getElem?_eq_none (by omega)] at hsep
          cases hsep
        rw [List.getElem?_eq_getElem hl] at hsep
        conv_lhs => rw [← List.take_append_drop pos s, List.drop_eq_getElem_cons hl]
        rw [Option.some.inj hsep]
      rw [hs]
      intro b hb
      rcases List.mem_append.mp hb with hb | hb
      · refine u8_lt_128 (UInt8.not_lt.mp fun hlt => h3 ?_)
        exact List.any_eq_true.mpr ⟨b, hb, by simp [hlt]⟩
      · rcases List.mem_cons.mp hb with rfl | hb
        · decide
        · exact revAll_ascii hc hd b hb

theorem kelvin_run (s : Bytes) : Json.runeLen (kelvin ++ s) = 3 := by simp [kelvin, Json.runeLen]
theorem dotted_run (s : Bytes) : Json.runeLen (dottedI ++ s) = 2 := by simp [dottedI, Json.runeLen]

theorem mapText_kelvin (f : UInt8 → UInt8) (g : Bytes → Bytes) (n : Nat) (s : Bytes) :
    mapText f g (n + 1) (kelvin ++ s) = g kelvin ++ mapText f g n s := by
  have h := kelvin_run s
  unfold kelvin at h ⊢
  simp only [List.cons_append, List.nil_append] at h ⊢
  rw [mapText, if_neg (by decide), if_neg (by rw [h]; decide), h]
  rfl

theorem mapText_dotted (f : UInt8 → UInt8) (g : Bytes → Bytes) (n : Nat) (s : Bytes) :
    mapText f g (n + 1) (dottedI ++ s) = g dottedI ++ mapText f g n s := by
  have h := dotted_run s
  unfold dottedI at h ⊢
  simp only [List.cons_append, List.nil_append] at h ⊢
  rw [mapText, if_neg (by decide), if_neg (by rw [h]; decide), h]
  rfl

/-- A text whose lower case is ASCII is a disguised ASCII text. -/
theorem disguise_of_lower {T : CaseTable} (hT : GoCase T) : ∀ (n : Nat) (s : Bytes), s.length ≤ n →
    Ascii (mapText toLower T.lower n s) → ∃ t, Ascii t ∧ Disguise t s
  | 0, s, h, _ => by
    have : s = [] := List.length_eq_zero_iff.mp (by omega)
    subst this; exact ⟨[], (by intro b hb; simp at hb), .nil⟩
  | n + 1, [], _, _ => ⟨[], (by intro b hb; simp at hb), .nil⟩
  | n + 1, b :: r, h, ha => by
    have hr : r.length ≤ n := by simpa using h
    rw [mapText] at ha
    split_ifs at ha with h1 h2
    · obtain ⟨t, t1, t2⟩ := disguise_of_lower hT n r hr (fun x hx => ha x (by simp [hx]))
      exact ⟨b :: t, (by intro x hx; rcases List.mem_cons.mp hx with rfl | hx; exacts [h1, t1 x hx]), .same b t2⟩
    · have := ha 0xef (by simp)
      exact absurd this (by decide)
    · have hd : ((b :: r).drop (Json.runeLen (b :: r))).length ≤ n := by
        rw [List.length_drop, List.length_cons]; omega
      have hsplit : b :: r = (b :: r).take (Json.runeLen (b :: r)) ++ (b :: r).drop (Json.runeLen (b :: r)) :=
        (List.take_append_drop _ _).symm
      obtain ⟨t, t1, t2⟩ := disguise_of_lower hT n _ hd (fun x hx => ha x (by simp [hx]))
      by_cases hk : (b :: r).take (Json.runeLen (b :: r)) = kelvin
      · refine ⟨0x4b :: t, ?_, ?_⟩
        · intro x hx; rcases List.mem_cons.mp hx with rfl | hx; exacts [by decide, t1 x hx]
        · rw [hsplit, hk]; exact .k t2
      · by_cases hi : (b :: r).take (Json.runeLen (b :: r)) = dottedI
        · refine ⟨0x49 :: t, ?_, ?_⟩
          · intro x hx; rcases List.mem_cons.mp hx with rfl | hx; exacts [by decide, t1 x hx]
          · rw [hsplit, hi]; exact .i t2
        · exfalso
          obtain ⟨o1, o2⟩ := hT.other_lower _ hk hi
          obtain ⟨x, hx⟩ := List.exists_mem_of_ne_nil _ o1
          have k1 := ha x (by simp only [List.mem_append]; exact Or.inl hx)
          have k2 := o2 x hx
          exact absurd k1 (UInt8.not_lt.mpr k2)

/-- The lower case of a disguised text is the lower case of the text. -/
theorem disguise_lower {T : CaseTable} (hT : GoCase T) {t s : Bytes} (hd : Disguise t s) (ha : Ascii t) :
    ∀ n, s.length ≤ n → mapText toLower T.lower n s = t.map toLower := by
  induction hd with
  | nil => intro n _; cases n <;> rfl
  | @same c t s h ih =>
    intro n hn
    obtain ⟨m, rfl⟩ : ∃ m, n = m + 1 := ⟨n - 1, by simp at hn; omega⟩
    rw [mapText, if_pos (ha c (by simp)), ih (fun x hx => ha x (by simp [hx])) m (by simpa using hn), List.map_cons]
  | @k t s h ih =>
    intro n hn
    obtain ⟨m, rfl⟩ : ∃ m, n = m + 1 := ⟨n - 1, by simp [kelvin] at hn; omega⟩
    rw [mapText_kelvin, hT.kelvin_lower, ih (fun x hx => ha x (by simp [hx])) m (by simp [kelvin] at hn; omega)]
    rfl
  | @i t s h ih =>
    intro n hn
    obtain ⟨m, rfl⟩ : ∃ m, n = m + 1 := ⟨n - 1, by simp [dottedI] at hn; omega⟩
    rw [mapText_dotted, hT.dotted_lower, ih (fun x hx => ha x (by simp [hx])) m (by simp [dottedI] at hn; omega)]
    rfl

/-- A disguised text is its own upper case exactly when the text is. -/
theorem disguise_upper {T : CaseTable} (hT : GoCase T) {t s : Bytes} (hd : Disguise t s) (ha : Ascii t) :
    ∀ n, s.length ≤ n → (mapText toUpper T.upper n s = s ↔ t.map toUpper = t) := by
  induction hd with
  | nil => intro n _; cases n <;> simp [mapText]
  | @same c t s h ih =>
    intro n hn
    obtain ⟨m, rfl⟩ : ∃ m, n = m + 1 := ⟨n - 1, by simp at hn; omega⟩
    rw [mapText, if_pos (ha c (by simp)), List.map_cons, List.cons.injEq, List.cons.injEq,
      ih (fun x hx => ha x (by simp [hx])) m (by simpa using hn)]
  | @k t s h ih =>
    intro n hn
    obtain ⟨m, rfl⟩ : ∃ m, n = m + 1 := ⟨n - 1, by simp [kelvin] at hn; omega⟩
    rw [mapText_kelvin, hT.kelvin_upper, List.append_cancel_left_eq,
      ih (fun x hx => ha x (by simp [hx])) m (by simp [kelvin] at hn; omega), List.map_cons, List.cons.injEq]
    simp [toUpper]
  | @i t s h ih =>
    intro n hn
    obtain ⟨m, rfl⟩ : ∃ m, n = m + 1 := ⟨n - 1, by simp [dottedI] at hn; omega⟩
    rw [mapText_dotted, hT.dotted_upper, List.append_cancel_left_eq,
      ih (fun x hx => ha x (by simp [hx])) m (by simp [dottedI] at hn; omega), List.map_cons, List.cons.injEq]
    simp [toUpper]

theorem disguise_length {t s : Bytes} (hd : Disguise t s) : t.length ≤ s.length := by
  induction hd with
  | nil => simp
  | same c h ih => simpa using ih
  | k h ih => simp [kelvin]; omega
  | i h ih => simp [dottedI]; omega

theorem disguise_eq {t s : Bytes} (hd : Disguise t s) (hl : s.length = t.length) : s = t := by
  induction hd with
  | nil => rfl
  | same c h ih => rw [ih (by simpa using hl)]
  | k h ih => have := disguise_length h; simp [kelvin] at hl; omega
  | i h ih => have := disguise_length h; simp [dottedI] at hl; omega

theorem disguise_refl : ∀ t : Bytes, Disguise t t
  | [] => .nil
  | c :: t => .same c (disguise_refl t)

/-- Which texts `Decode` accepts. -/
theorem decodeText_ok_iff {T : CaseTable} (hT : GoCase T) {charset : Bytes} (hc : Ascii charset) (s : Bytes)
    (r : Bytes × List Nat × Spec) : decodeText T s charset = .ok r ↔
      s.length ≤ 90 ∧ ∃ t, Ascii t ∧ decode t charset = .ok r ∧ (s = t ∨ (t.map toUpper = t ∧ Disguise t s)) := by
  constructor
  · intro h
    have h0 := h
    unfold decodeText at h
    split_ifs at h with h1 h2
    refine ⟨by omega, ?_⟩
    have hl := decodeLower_ascii hc h
    obtain ⟨t, t1, t2⟩ := disguise_of_lower hT _ s le_rfl hl
    have e1 : lowerText T s = t.map toLower := disguise_lower hT t2 t1 _ le_rfl
    have e2 := disguise_upper hT t2 t1 _ le_rfl
    by_cases hlow : lowerText T s = s
    · have hst : s = t := disguise_eq t2 (by rw [e1] at hlow; rw [← hlow]; simp)
      subst hst
      exact ⟨s, t1, by rw [← decodeText_ascii T t1]; exact h0, Or.inl rfl⟩
    · have hup : upperText T s = s := by
        by_contra hn; exact h2 ⟨hlow, hn⟩
      have hup' := e2.mp hup
      refine ⟨t, t1, ?_, Or.inr ⟨hup', t2⟩⟩
      have := disguise_length t2
      rw [decode_lower, if_neg (by omega), if_neg (by simp [hup']), ← e1]
      exact h
  · rintro ⟨hn, t, t1, t2, rfl | ⟨t3, t4⟩⟩
    · rw [decodeText_ascii T t1]; exact t2
    · have e1 : lowerText T s = t.map toLower := disguise_lower hT t4 t1 _ le_rfl
      have e2 : upperText T s = s := (disguise_upper hT t4 t1 _ le_rfl).mpr t3
      rw [decode_lower] at t2
      split_ifs at t2 with h1 h2
      rw [decodeText, if_neg (by omega), if_neg (by simp [e2]), e1]
      exact t2

end Verif.Bech32m
