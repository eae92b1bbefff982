import Verif.Model.Json
import Verif.Lemmas.Hex
import Mathlib.Tactic.Ring

/-! Facts about the model of `encoding/json`: what it writes is JSON of the specification, and it reads such texts back. -/

namespace Verif.Json
open Verif Verif.Spec

theorem encodeRune_eq (n : Nat) : encodeRune n = utf8 n := rfl

theorem utf8_length (n : Nat) : 1 ≤ (utf8 n).length := by
  unfold utf8
  split_ifs <;> simp

/-- The first byte of a character tells whether it is ASCII. -/
theorem utf8_ascii {n : Nat} (h : n < 0x80) : utf8 n = [UInt8.ofNat n] := by
  unfold utf8
  rw [if_pos h]

theorem runeLen_utf8 {n : Nat} (h : IsScalar n) (r : Bytes) : runeLen (utf8 n ++ r) = (utf8 n).length := by
  have t : ∀ m, m < 256 → (UInt8.ofNat m).toNat = m := fun m hm => by rw [UInt8.toNat_ofNat']; omega
  unfold IsScalar at h
  unfold utf8
  split_ifs with h1 h2 h3
  · simp only [List.cons_append, List.nil_append, runeLen]
    rw [if_pos (by rw [UInt8.lt_iff_toNat_lt, t n (by omega)]; exact h1)]
    rfl
  · simp only [List.cons_append, List.nil_append, runeLen]
    rw [if_neg, if_neg, if_pos, if_pos]
    · rfl
    all_goals (simp only [UInt8.lt_iff_toNat_lt, UInt8.le_iff_toNat_le]; rw [t _ (by omega)])
    · rw [show (0x80 : UInt8).toNat = 128 from rfl, show (0xbf : UInt8).toNat = 191 from rfl]; omega
    · rw [show (0xe0 : UInt8).toNat = 224 from rfl]; omega
    · rw [show (0xc2 : UInt8).toNat = 194 from rfl]; omega
    · rw [show (0x80 : UInt8).toNat = 128 from rfl]; omega
  · simp only [List.cons_append, List.nil_append, runeLen]
    rw [if_neg, if_neg, if_neg, if_pos, if_pos]
    · rfl
    · simp only [UInt8.le_iff_toNat_le, apply_ite UInt8.toNat, ← UInt8.toNat_inj]
      rw [t (0xe0 + n / 4096) (by omega), t (0x80 + n / 64 % 64) (by omega), t (0x80 + n % 64) (by omega)]
      rw [show (0x80 : UInt8).toNat = 128 from rfl, show (0xbf : UInt8).toNat = 191 from rfl, show (0xe0 : UInt8).toNat = 224 from rfl,
        show (0xed : UInt8).toNat = 237 from rfl, show (0xa0 : UInt8).toNat = 160 from rfl, show (0x9f : UInt8).toNat = 159 from rfl]
      split_ifs <;> omega
    all_goals (simp only [UInt8.lt_iff_toNat_lt]; rw [t _ (by omega)])
    · rw [show (0xf0 : UInt8).toNat = 240 from rfl]; omega
    · rw [show (0xe0 : UInt8).toNat = 224 from rfl]; omega
    · rw [show (0xc2 : UInt8).toNat = 194 from rfl]; omega
    · rw [show (0x80 : UInt8).toNat = 128 from rfl]; omega
  · simp only [List.cons_append, List.nil_append, runeLen]
    rw [if_neg, if_neg, if_neg, if_neg, if_pos, if_pos]
    · rfl
    · simp only [UInt8.le_iff_toNat_le, apply_ite UInt8.toNat, ← UInt8.toNat_inj]
      rw [t (0xf0 + n / 262144) (by omega), t (0x80 + n / 4096 % 64) (by omega), t (0x80 + n / 64 % 64) (by omega), t (0x80 + n % 64) (by omega)]
      rw [show (0x80 : UInt8).toNat = 128 from rfl, show (0xbf : UInt8).toNat = 191 from rfl, show (0xf0 : UInt8).toNat = 240 from rfl,
        show (0xf4 : UInt8).toNat = 244 from rfl, show (0x90 : UInt8).toNat = 144 from rfl, show (0x8f : UInt8).toNat = 143 from rfl]
      split_ifs <;> omega
    all_goals (simp only [UInt8.lt_iff_toNat_lt]; rw [t _ (by omega)])
    · rw [show (0xf5 : UInt8).toNat = 245 from rfl]; omega
    · rw [show (0xf0 : UInt8).toNat = 240 from rfl]; omega
    · rw [show (0xe0 : UInt8).toNat = 224 from rfl]; omega
    · rw [show (0xc2 : UInt8).toNat = 194 from rfl]; omega
    · rw [show (0x80 : UInt8).toNat = 128 from rfl]; omega

/-- A character that is not ASCII starts with a byte from 0x80 on. -/
theorem utf8_high {n : Nat} (h : IsScalar n) (hn : 0x80 ≤ n) : ∃ b r, utf8 n = b :: r ∧ ¬ b < 0x80 ∧ b ≠ 0x22 ∧ b ≠ 0x5c ∧ ¬ b < 0x20 := by
  have t : ∀ m, m < 256 → (UInt8.ofNat m).toNat = m := fun m hm => by rw [UInt8.toNat_ofNat']; omega
  unfold IsScalar at h
  have key : ∀ m r, 0x80 ≤ m → m < 256 → ∃ b r', UInt8.ofNat m :: r = b :: r' ∧ ¬ b < 0x80 ∧ b ≠ 0x22 ∧ b ≠ 0x5c ∧ ¬ b < 0x20 := by
    intro m r h1 h2
    refine ⟨_, _, rfl, ?_, ?_, ?_, ?_⟩
    · rw [UInt8.lt_iff_toNat_lt, t m h2, show (0x80 : UInt8).toNat = 128 from rfl]; omega
    · rw [Ne, ← UInt8.toNat_inj, t m h2, show (0x22 : UInt8).toNat = 34 from rfl]; omega
    · rw [Ne, ← UInt8.toNat_inj, t m h2, show (0x5c : UInt8).toNat = 92 from rfl]; omega
    · rw [UInt8.lt_iff_toNat_lt, t m h2, show (0x20 : UInt8).toNat = 32 from rfl]; omega
  unfold utf8
  rw [if_neg (by omega)]
  split_ifs
  · exact key _ _ (by omega) (by omega)
  · exact key _ _ (by omega) (by omega)
  · exact key _ _ (by omega) (by omega)

theorem utf8_inj3 {n : Nat} (h : IsScalar n) {x : Nat} (hx : IsScalar x) {r : Bytes} (he : (utf8 n ++ r).take (utf8 x).length = utf8 x) : n = x := by
  have t : ∀ m, m < 256 → (UInt8.ofNat m).toNat = m := fun m hm => by rw [UInt8.toNat_ofNat']; omega
  have hsplit : utf8 x ++ (utf8 n ++ r).drop (utf8 x).length = utf8 n ++ r := by
    conv_rhs => rw [← List.take_append_drop (utf8 x).length (utf8 n ++ r), he]
  have l1 := runeLen_utf8 h r
  have l2 := runeLen_utf8 hx ((utf8 n ++ r).drop (utf8 x).length)
  rw [hsplit, l1] at l2
  have e2 : utf8 x = utf8 n := (List.append_inj hsplit l2.symm).1
  unfold IsScalar at h hx
  unfold utf8 at e2
  split_ifs at e2 <;> simp only [List.cons.injEq, and_true, reduceCtorEq, and_false] at e2
  · have := congrArg UInt8.toNat e2
    rw [t x (by omega), t n (by omega)] at this; omega
  · have a1 := congrArg UInt8.toNat e2.1
    have a2 := congrArg UInt8.toNat e2.2
    rw [t _ (by omega), t _ (by omega)] at a1 a2
    omega
  · have a1 := congrArg UInt8.toNat e2.1
    have a2 := congrArg UInt8.toNat e2.2.1
    have a3 := congrArg UInt8.toNat e2.2.2
    rw [t _ (by omega), t _ (by omega)] at a1 a2 a3
    omega
  · have a1 := congrArg UInt8.toNat e2.1
    have a2 := congrArg UInt8.toNat e2.2.1
    have a3 := congrArg UInt8.toNat e2.2.2.1
    have a4 := congrArg UInt8.toNat e2.2.2.2
    rw [t _ (by omega), t _ (by omega)] at a1 a2 a3 a4
    omega

/-! ### Strings -/

theorem escByte_chars (b : UInt8) (hb : b < 0x80) (t s : Bytes) (h : IsChars t s) : IsChars (escByte b ++ t) (b :: s) := by
  have hu : ∀ b : UInt8, b < 0x80 → utf8 b.toNat = [b] := by
    intro b hb
    rw [utf8_ascii (by rw [UInt8.lt_iff_toNat_lt] at hb; exact hb)]
    simp
  unfold escByte
  split_ifs with h1 h2 h3 h4 h5
  · rcases h1 with rfl | rfl
    · exact .escape 0x22 0x22 t s (by decide) h
    · exact .escape 0x5c 0x5c t s (by decide) h
  · subst h2; exact .escape 0x6e 0x0a t s (by decide) h
  · subst h3; exact .escape 0x72 0x0d t s (by decide) h
  · subst h4; exact .escape 0x74 0x09 t s (by decide) h
  · have hd : ∀ b : UInt8, hexDigit (Hex.digit (b / 16)) = some (b.toNat / 16) ∧ hexDigit (Hex.digit (b % 16)) = some (b.toNat % 16) := by
      apply Hex.u8_forall; decide +kernel
    have he : 0 * 4096 + 0 * 256 + b.toNat / 16 * 16 + b.toNat % 16 = b.toNat := by omega
    have := IsChars.unicode 0x30 0x30 (Hex.digit (b / 16)) (Hex.digit (b % 16)) 0 0 (b.toNat / 16) (b.toNat % 16) t s (by decide) (by decide)
      (hd b).1 (hd b).2 (by rw [he]; left; have := b.toNat_lt; omega) h
    rw [he, hu b hb] at this
    exact this
  · have := IsChars.plain b.toNat t s (by left; have := b.toNat_lt; omega)
      (by simp only [not_or, UInt8.not_lt, UInt8.le_iff_toNat_le] at h5; exact h5.1)
      (by intro h; exact h1 (Or.inl (UInt8.toNat_inj.mp h))) (by intro h; exact h1 (Or.inr (UInt8.toNat_inj.mp h))) h
    rw [hu b hb] at this
    exact this

theorem quoteBody_chars : ∀ (cs : List Nat), (∀ c ∈ cs, IsScalar c) → ∀ n, (cs.flatMap utf8).length ≤ n →
    IsChars (quoteBody n (cs.flatMap utf8)) (cs.flatMap utf8) := by
  intro cs
  induction cs with
  | nil =>
    intro _ n _
    cases n <;> exact .nil
  | cons c cs ih =>
    intro hc n hn
    have hc1 : IsScalar c := hc c (by simp)
    have hl := utf8_length c
    simp only [List.flatMap_cons, List.length_append] at hn ⊢
    cases n with
    | zero => omega
    | succ n =>
      have ih' := ih (fun x hx => hc x (by simp [hx])) n (by omega)
      by_cases hlo : c < 0x80
      · rw [utf8_ascii hlo]
        have hb : UInt8.ofNat c < 0x80 := by
          rw [UInt8.lt_iff_toNat_lt, UInt8.toNat_ofNat', show (0x80 : UInt8).toNat = 128 from rfl]; omega
        simp only [List.cons_append, List.nil_append, quoteBody]
        rw [if_pos hb]
        exact escByte_chars _ hb _ _ ih'
      · obtain ⟨b, r, e, hb, hq, hbs, _⟩ := utf8_high hc1 (by omega)
        have hlen := runeLen_utf8 hc1 (cs.flatMap utf8)
        have e' : utf8 c ++ cs.flatMap utf8 = b :: (r ++ cs.flatMap utf8) := by rw [e]; rfl
        rw [e'] at hlen ⊢
        simp only [quoteBody]
        rw [if_neg hb, if_neg (by omega), hlen, ← e', List.take_left, List.drop_left]
        have x8 : utf8 0x2028 = [0xe2, 0x80, 0xa8] := by decide
        have x9 : utf8 0x2029 = [0xe2, 0x80, 0xa9] := by decide
        by_cases h8 : (utf8 c ++ cs.flatMap utf8).take 3 = [0xe2, 0x80, 0xa8]
        · rw [if_pos h8]
          have : c = 0x2028 := utf8_inj3 hc1 (by left; decide) (r := cs.flatMap utf8) (by rw [x8]; exact h8)
          subst this
          rw [x8]
          exact IsChars.unicode 0x32 0x30 0x32 0x38 2 0 2 8 _ _ (by decide) (by decide) (by decide) (by decide) (by left; decide) ih'
        · rw [if_neg h8]
          by_cases h9 : (utf8 c ++ cs.flatMap utf8).take 3 = [0xe2, 0x80, 0xa9]
          · rw [if_pos h9]
            have : c = 0x2029 := utf8_inj3 hc1 (by left; decide) (r := cs.flatMap utf8) (by rw [x9]; exact h9)
            subst this
            rw [x9]
            exact IsChars.unicode 0x32 0x30 0x32 0x39 2 0 2 9 _ _ (by decide) (by decide) (by decide) (by decide) (by left; decide) ih'
          · rw [if_neg h9]
            exact IsChars.plain c _ _ hc1 (by omega) (by omega) (by omega) ih'

theorem quote_chars {s : Bytes} (h : IsUtf8 s) : IsChars (quoteBody s.length s) s := by
  obtain ⟨cs, h1, rfl⟩ := h
  exact quoteBody_chars cs h1 _ (Nat.le_refl _)

/-! ### Reading -/

theorem unescape_mem {e v : UInt8} (h : (e, v) ∈ escapes) : unescape e = some v ∧ e ≠ 0x75 := by
  unfold escapes at h
  simp only [List.mem_cons, Prod.mk.injEq, List.not_mem_nil, or_false] at h
  rcases h with ⟨rfl, rfl⟩ | ⟨rfl, rfl⟩ | ⟨rfl, rfl⟩ | ⟨rfl, rfl⟩ | ⟨rfl, rfl⟩ | ⟨rfl, rfl⟩ | ⟨rfl, rfl⟩ | ⟨rfl, rfl⟩ <;> decide

theorem hexDigit_value (c : UInt8) : hexDigit c = (Hex.value c).map UInt8.toNat := by
  revert c; apply Hex.u8_forall; decide +kernel

theorem string_chars {t s : Bytes} (h : IsChars t s) : ∀ (r : Bytes) (n : Nat), t.length < n → string n (t ++ 0x22 :: r) = some (s, r) := by
  induction h with
  | nil =>
    intro r n hn
    cases n with
    | zero => simp at hn
    | succ n => simp [string]
  | plain c t s hc h1 h2 h3 _ ih =>
    intro r n hn
    have hl := utf8_length c
    simp only [List.length_append] at hn
    cases n with
    | zero => omega
    | succ n =>
      have ih' := ih r n (by omega)
      have hlen := runeLen_utf8 hc (t ++ 0x22 :: r)
      have hhead : ∃ b r', utf8 c = b :: r' ∧ b ≠ 0x22 ∧ b ≠ 0x5c ∧ ¬ b < 0x20 := by
        by_cases hlo : c < 0x80
        · have tn : (UInt8.ofNat c).toNat = c := by rw [UInt8.toNat_ofNat']; omega
          refine ⟨_, _, utf8_ascii hlo, ?_, ?_, ?_⟩
          · rw [Ne, ← UInt8.toNat_inj, tn]; exact h2
          · rw [Ne, ← UInt8.toNat_inj, tn]; exact h3
          · rw [UInt8.lt_iff_toNat_lt, tn, show (0x20 : UInt8).toNat = 32 from rfl]; omega
        · obtain ⟨b, r', e, _, a, b', d⟩ := utf8_high hc (by omega)
          exact ⟨b, r', e, a, b', d⟩
      obtain ⟨b, r', e, q1, q2, q3⟩ := hhead
      have e' : utf8 c ++ t ++ 0x22 :: r = b :: (r' ++ (t ++ 0x22 :: r)) := by rw [e]; simp
      have e'' : b :: (r' ++ (t ++ 0x22 :: r)) = utf8 c ++ (t ++ 0x22 :: r) := by rw [e]; simp
      rw [e', string.eq_def]
      simp only
      rw [if_neg q1, if_neg q2, if_neg q3, e'', hlen, if_neg (by omega), List.drop_left, List.take_left, ih']
      rfl
  | escape e v t s he _ ih =>
    intro r n hn
    simp only [List.length_cons] at hn
    obtain ⟨h1, h2⟩ := unescape_mem he
    cases n with
    | zero => omega
    | succ n =>
      rw [List.cons_append, List.cons_append, string.eq_def]
      simp only
      rw [if_neg (by decide), if_pos trivial, if_neg h2, h1, ih r n (by omega)]
      rfl
  | unicode a b c d va vb vc vd t s ha hb hc hd hs _ ih =>
    intro r n hn
    simp only [List.length_cons] at hn
    cases n with
    | zero => omega
    | succ n =>
      have h4 : hex4 (a :: b :: c :: d :: (t ++ 0x22 :: r)) = some (va * 4096 + vb * 256 + vc * 16 + vd, t ++ 0x22 :: r) := by
        rw [hexDigit_value, Option.map_eq_some_iff] at ha hb hc hd
        obtain ⟨a', ha, rfl⟩ := ha
        obtain ⟨b', hb, rfl⟩ := hb
        obtain ⟨c', hc, rfl⟩ := hc
        obtain ⟨d', hd, rfl⟩ := hd
        simp only [hex4, ha, hb, hc, hd]
      simp only [List.cons_append]
      rw [string.eq_def]
      simp only
      rw [if_neg (by decide), if_pos trivial, if_pos trivial, h4]
      simp only
      rw [if_pos (by unfold IsScalar at hs; omega), ih r n (by omega), encodeRune_eq]
      rfl

/-- What may follow a value inside a text. -/
def Delim (r : Bytes) : Prop := r = [] ∨ ∃ c r', r = c :: r' ∧ (c = 0x2c ∨ c = 0x5d ∨ c = 0x7d ∨ c = 0x20 ∨ c = 0x09 ∨ c = 0x0a ∨ c = 0x0d)

theorem digits_isDigit {d : UInt8} (h : 0x30 ≤ d.toNat ∧ d.toNat ≤ 0x39) : isDigit d = true := by
  unfold isDigit
  simpa [UInt8.le_iff_toNat_le] using h

theorem takeWhile_digits {ds r : Bytes} (h : ∀ d ∈ ds, isDigit d = true) (hr : r = [] ∨ ∃ c r', r = c :: r' ∧ isDigit c = false) :
    (ds ++ r).takeWhile isDigit = ds ∧ (ds ++ r).dropWhile isDigit = r := by
  induction ds with
  | nil =>
    rcases hr with rfl | ⟨c, r', rfl, hc⟩
    · simp
    · simp [hc]
  | cons d ds ih =>
    have h1 := h d (by simp)
    obtain ⟨a, b⟩ := ih (fun x hx => h x (by simp [hx]))
    simp [h1, a, b]

theorem Delim.notDigit {r : Bytes} (h : Delim r) : r = [] ∨ ∃ c r', r = c :: r' ∧ isDigit c = false := by
  rcases h with rfl | ⟨c, r', rfl, hc⟩
  · exact Or.inl rfl
  · exact Or.inr ⟨c, r', rfl, by rcases hc with rfl | rfl | rfl | rfl | rfl | rfl | rfl <;> decide⟩

theorem Delim.tail {r : Bytes} (h : Delim r) : fraction r = some ([], r) ∧ exponent r = some ([], r) := by
  rcases h with rfl | ⟨c, r', rfl, hc⟩
  · exact ⟨rfl, rfl⟩
  · rcases hc with rfl | rfl | rfl | rfl | rfl | rfl | rfl <;> exact ⟨rfl, rfl⟩

theorem unsigned_digits {ds r : Bytes} {k : Nat} (h : IsDigits ds k) (hr : Delim r) : unsigned (ds ++ r) = some (ds, r) := by
  obtain ⟨h1, h2, h3, _⟩ := h
  have hw : wholePart (ds ++ r) = some (ds, r) := by
    cases ds with
    | nil => exact absurd rfl h1
    | cons d ds =>
      by_cases h0 : d = 0x30
      · subst h0
        have := h3 rfl
        simp only [List.cons.injEq, true_and] at this
        subst this
        rfl
      · have hd : isDigit d = true := digits_isDigit (h2 d (by simp))
        have hw : wholePart (d :: ds ++ r) = digits1 (d :: ds ++ r) := by
          rw [List.cons_append, wholePart.eq_def]
          split
          · rename_i heq
            simp only [List.cons.injEq] at heq
            exact absurd heq.1 h0
          · rfl
        rw [hw]
        obtain ⟨a, b⟩ := takeWhile_digits (ds := d :: ds) (fun x hx => digits_isDigit (h2 x hx)) hr.notDigit
        unfold digits1
        rw [a, b]
  unfold unsigned
  simp only [hw, hr.tail.1, hr.tail.2]
  simp

theorem number_decimal {t r : Bytes} {n : Int} (h : IsDecimal t n) (hr : Delim r) : number (t ++ r) = some (t, r) := by
  rcases h with ⟨k, _, hd⟩ | ⟨k, ds, _, _, rfl, hd⟩
  · have hne : ∀ x, t ++ r ≠ 0x2d :: x := by
      intro x hx
      cases t with
      | nil => exact hd.1 rfl
      | cons d t =>
        simp only [List.cons_append, List.cons.injEq] at hx
        have := hd.2.1 d (by simp)
        rw [hx.1] at this
        revert this; decide
    unfold number
    split
    · rename_i heq
      exact absurd heq (hne _)
    · exact unsigned_digits hd hr
  · rw [List.cons_append]
    unfold number
    simp only [unsigned_digits hd hr]
    rfl

theorem digit_head (d : UInt8) : 0x30 ≤ d.toNat ∧ d.toNat ≤ 0x39 → isSpace d = false ∧ d ≠ 0x5d ∧ d ≠ 0x7d := by
  revert d; apply Hex.u8_forall; decide +kernel

/-- The first character of a value is not white space nor a closing bracket. -/
theorem json_head {t : Bytes} {v : Json} (h : IsJson t v) : ∃ c r, t = c :: r ∧ isSpace c = false ∧ c ≠ 0x5d ∧ c ≠ 0x7d := by
  cases h with
  | null => exact ⟨_, _, rfl, by decide, by decide, by decide⟩
  | true => exact ⟨_, _, rfl, by decide, by decide, by decide⟩
  | false => exact ⟨_, _, rfl, by decide, by decide, by decide⟩
  | num _ n hd =>
    rcases hd with ⟨k, _, hd⟩ | ⟨k, ds, _, _, rfl, _⟩
    · cases t with
      | nil => exact absurd rfl hd.1
      | cons d t =>
        refine ⟨d, t, rfl, ?_⟩
        have := hd.2.1 d (by simp)
        exact digit_head d this
    · exact ⟨_, _, rfl, by decide, by decide, by decide⟩
  | str => exact ⟨_, _, rfl, by decide, by decide, by decide⟩
  | arr => exact ⟨_, _, rfl, by decide, by decide, by decide⟩
  | obj => exact ⟨_, _, rfl, by decide, by decide, by decide⟩

theorem skip_of {c : UInt8} {r : Bytes} (h : isSpace c = false) : skip (c :: r) = c :: r := by
  unfold skip
  rw [List.dropWhile_cons, h]
  rfl

/-- Numbers are read as such. -/
theorem value_num {t r : Bytes} {k : Int} (h : IsDecimal t k) (hr : Delim r) (n : Nat) : value (n + 1) (t ++ r) = some (.num t, r) := by
  have hn := number_decimal h hr
  obtain ⟨c, t', ht, hs, _⟩ := json_head (IsJson.num t k h)
  have hc : c = 0x2d ∨ (0x30 ≤ c.toNat ∧ c.toNat ≤ 0x39) := by
    rcases h with ⟨_, _, hd⟩ | ⟨_, ds, _, _, e, _⟩
    · right; exact hd.2.1 c (by rw [ht]; simp)
    · left; rw [e] at ht; simp only [List.cons.injEq] at ht; exact ht.1.symm
  subst ht
  rw [value.eq_def]
  simp only
  rw [List.cons_append, skip_of hs]
  rw [List.cons_append] at hn
  split
  · rename_i heq
    simp only [List.cons.injEq] at heq; rw [heq.1] at hc; exfalso; revert hc; decide
  · rename_i heq
    simp only [List.cons.injEq] at heq; rw [heq.1] at hc; exfalso; revert hc; decide
  · rename_i heq
    simp only [List.cons.injEq] at heq; rw [heq.1] at hc; exfalso; revert hc; decide
  · rename_i heq
    simp only [List.cons.injEq] at heq; rw [heq.1] at hc; exfalso; revert hc; decide
  · rename_i heq
    simp only [List.cons.injEq] at heq; rw [heq.1] at hc; exfalso; revert hc; decide
  · rename_i heq
    simp only [List.cons.injEq] at heq; rw [heq.1] at hc; exfalso; revert hc; decide
  · rw [hn]; rfl

theorem elementsOf_head {t : Bytes} {v : Json} (h : IsJson t v) (r : Bytes) :
    (∀ r', skip (t ++ r) ≠ 0x5d :: r') ∧ (∀ r', skip (t ++ r) ≠ 0x7d :: r') ∧ skip (t ++ r) = t ++ r := by
  obtain ⟨c, t', rfl, hs, h1, h2⟩ := json_head h
  rw [List.cons_append, skip_of hs]
  refine ⟨?_, ?_, rfl⟩
  · intro r' he; simp only [List.cons.injEq] at he; exact h1 he.1
  · intro r' he; simp only [List.cons.injEq] at he; exact h2 he.1

mutual
/-- The parser accepts every text of the grammar, with its value. -/
theorem value_json {t : Bytes} {v : Json} (h : IsJson t v) (r : Bytes) (hr : Delim r) (n : Nat) (hn : t.length ≤ n) :
    value n (t ++ r) = some (v, r) := by
  cases h with
  | null => cases n with
    | zero => simp [asc] at hn
    | succ n => rfl
  | true => cases n with
    | zero => simp [asc] at hn
    | succ n => rfl
  | false => cases n with
    | zero => simp [asc] at hn
    | succ n => rfl
  | num _ k hd =>
    cases n with
    | zero => exact absurd (List.length_eq_zero_iff.mp (Nat.le_zero.mp hn)) (by obtain ⟨_, _, e, _⟩ := json_head (IsJson.num t k hd); rw [e]; simp)
    | succ n => exact value_num hd hr n
  | str t s hs =>
    cases n with
    | zero => simp at hn
    | succ n =>
      have e : 0x22 :: t ++ [0x22] ++ r = 0x22 :: (t ++ 0x22 :: r) := by simp
      rw [e, value.eq_def]
      simp only
      rw [skip_of (by decide)]
      simp only
      rw [string_chars hs r _ (by simp; omega)]
      rfl
  | arr t l hl =>
    have e : 0x5b :: t ++ [0x5d] ++ r = 0x5b :: (t ++ 0x5d :: r) := by simp
    simp only [List.length_cons, List.length_append, List.length_nil] at hn
    cases n with
    | zero => omega
    | succ n =>
      rw [e, value.eq_def]
      simp only
      rw [skip_of (by decide)]
      simp only
      by_cases hl0 : l = []
      · subst hl0
        cases hl
        rfl
      · have hne : ∀ r', skip (t ++ 0x5d :: r) ≠ 0x5d :: r' := by
          cases hl with
          | nil => exact absurd rfl hl0
          | one t v hv => exact (elementsOf_head hv _).1
          | cons t t' v v' l hv _ => rw [List.append_assoc]; exact (elementsOf_head hv _).1
        have hsk : skip (t ++ 0x5d :: r) = t ++ 0x5d :: r := by
          cases hl with
          | nil => exact absurd rfl hl0
          | one t v hv => exact (elementsOf_head hv _).2.2
          | cons t t' v v' l hv _ => rw [List.append_assoc]; exact (elementsOf_head hv _).2.2
        have hel := elementsOf_json hl hl0 r n (by omega)
        split
        · rename_i heq; exact absurd heq (hne _)
        · rw [hsk, hel]; rfl
  | obj t l hl =>
    have e : 0x7b :: t ++ [0x7d] ++ r = 0x7b :: (t ++ 0x7d :: r) := by simp
    simp only [List.length_cons, List.length_append, List.length_nil] at hn
    cases n with
    | zero => omega
    | succ n =>
      rw [e, value.eq_def]
      simp only
      rw [skip_of (by decide)]
      simp only
      by_cases hl0 : l = []
      · subst hl0
        cases hl
        rfl
      · have hhd : ∃ t', t = 0x22 :: t' := by
          cases hl with
          | nil => exact absurd rfl hl0
          | one => exact ⟨_, rfl⟩
          | cons => exact ⟨_, rfl⟩
        have hel := membersOf_json hl hl0 r n (by omega)
        obtain ⟨t', rfl⟩ := hhd
        have hsk : skip (0x22 :: t' ++ 0x7d :: r) = 0x22 :: t' ++ 0x7d :: r := by rw [List.cons_append, skip_of (by decide)]
        split
        · rename_i heq
          rw [hsk] at heq
          simp at heq
        · rw [hsk, hel]; rfl

/-- The same for the elements of an array. -/
theorem elementsOf_json {t : Bytes} {l : List Json} (h : IsElements t l) (hl : l ≠ []) (r : Bytes) (n : Nat) (hn : t.length + 1 ≤ n) :
    elementsOf n (t ++ 0x5d :: r) = some (l, r) := by
  cases h with
  | nil => exact absurd rfl hl
  | one _ v hv =>
    cases n with
    | zero => omega
    | succ n =>
      rw [elementsOf.eq_def]
      simp only
      rw [value_json hv (0x5d :: r) (Or.inr ⟨_, _, rfl, by simp⟩) n (by omega)]
      simp only
      rw [skip_of (by decide)]
      rfl
  | cons t t' v v' l hv hl' =>
    simp only [List.length_append, List.length_cons] at hn
    cases n with
    | zero => omega
    | succ n =>
      have e : t ++ 0x2c :: t' ++ 0x5d :: r = t ++ 0x2c :: (t' ++ 0x5d :: r) := by simp
      rw [e, elementsOf.eq_def]
      simp only
      rw [value_json hv _ (Or.inr ⟨_, _, rfl, by simp⟩) n (by omega)]
      simp only
      rw [skip_of (by decide)]
      simp only
      rw [elementsOf_json hl' (by simp) r n (by omega)]
      rfl

/-- The same for the members of an object. -/
theorem membersOf_json {t : Bytes} {l : List (Bytes × Json)} (h : IsMembers t l) (hl : l ≠ []) (r : Bytes) (n : Nat) (hn : t.length + 1 ≤ n) :
    membersOf n (t ++ 0x7d :: r) = some (l, r) := by
  cases h with
  | nil => exact absurd rfl hl
  | one k s t v hk hv =>
    simp only [List.length_append, List.length_cons] at hn
    cases n with
    | zero => omega
    | succ n =>
      have e : 0x22 :: k ++ 0x22 :: 0x3a :: t ++ 0x7d :: r = 0x22 :: (k ++ 0x22 :: 0x3a :: (t ++ 0x7d :: r)) := by simp
      rw [e, membersOf.eq_def]
      simp only
      rw [skip_of (by decide)]
      simp only
      rw [string_chars hk _ _ (by simp; omega)]
      simp only
      rw [skip_of (by decide)]
      simp only
      rw [value_json hv (0x7d :: r) (Or.inr ⟨_, _, rfl, by simp⟩) n (by omega)]
      simp only
      rw [skip_of (by decide)]
      rfl
  | cons k s t t' v m l hk hv hl' =>
    simp only [List.length_append, List.length_cons] at hn
    cases n with
    | zero => omega
    | succ n =>
      have e : 0x22 :: k ++ 0x22 :: 0x3a :: t ++ 0x2c :: t' ++ 0x7d :: r = 0x22 :: (k ++ 0x22 :: 0x3a :: (t ++ 0x2c :: (t' ++ 0x7d :: r))) := by simp
      rw [e, membersOf.eq_def]
      simp only
      rw [skip_of (by decide)]
      simp only
      rw [string_chars hk _ _ (by simp; omega)]
      simp only
      rw [skip_of (by decide)]
      simp only
      rw [value_json hv _ (Or.inr ⟨_, _, rfl, by simp⟩) n (by omega)]
      simp only
      rw [skip_of (by decide)]
      simp only
      rw [membersOf_json hl' (by simp) r n (by omega)]
      rfl
end

theorem parse_json {t : Bytes} {v : Json} (h : IsJson t v) : parse t = some v := by
  have := value_json h [] (Or.inl rfl) (2 * t.length + 2) (by omega)
  rw [List.append_nil] at this
  unfold parse
  rw [this]
  rfl

/-- The grammar is unambiguous. -/
theorem json_unique {t : Bytes} {v w : Json} (h : IsJson t v) (h' : IsJson t w) : v = w := by
  have := parse_json h
  rw [parse_json h'] at this
  exact (Option.some.inj this).symm

/-! ### Writing -/

/-- All strings are UTF-8, all numbers integers in decimal digits. -/
inductive Clean : Json → Prop
  | null : Clean .null
  | bool (b : Bool) : Clean (.bool b)
  | num (t : Bytes) (n : Int) : IsDecimal t n → Clean (.num t)
  | str (s : Bytes) : IsUtf8 s → Clean (.str s)
  | arr (l : List Json) : (∀ v ∈ l, Clean v) → Clean (.arr l)
  | obj (l : List (Bytes × Json)) : (∀ m ∈ l, IsUtf8 m.1) → (∀ m ∈ l, Clean m.2) → Clean (.obj l)

theorem marshal_json {v : Json} (h : Clean v) : IsJson (marshal v) v := by
  induction h with
  | null => exact IsJson.null
  | bool b => cases b
              · exact IsJson.false
              · exact IsJson.true
  | num t n h => exact IsJson.num t n h
  | str s h => exact IsJson.str _ _ (quote_chars h)
  | arr l hc ih =>
    rw [marshal]
    refine IsJson.arr _ _ ?_
    induction l with
    | nil => exact IsElements.nil
    | cons v l ihl =>
      cases l with
      | nil => exact IsElements.one _ _ (ih v (by simp))
      | cons v' l =>
        rw [elements]
        exact IsElements.cons _ _ _ _ _ (ih v (by simp)) (ihl (fun x hx => hc x (by simp [hx])) (fun x hx => ih x (by simp [hx])))
  | obj l hk hc ih =>
    rw [marshal]
    refine IsJson.obj _ _ ?_
    induction l with
    | nil => exact IsMembers.nil
    | cons m l ihl =>
      cases l with
      | nil =>
        have := IsMembers.one _ _ _ _ (quote_chars (hk m (by simp))) (ih m (by simp))
        rw [members]
        simpa [quote] using this
      | cons m' l =>
        rw [members]
        have := IsMembers.cons _ _ _ _ _ m' l (quote_chars (hk m (by simp))) (ih m (by simp))
          (ihl (fun x hx => hk x (by simp [hx])) (fun x hx => hc x (by simp [hx])) (fun x hx => ih x (by simp [hx])))
        simpa [quote] using this

theorem parse_marshal {v : Json} (h : Clean v) : parse (marshal v) = some v := parse_json (marshal_json h)

theorem marshal_inj {v w : Json} (hv : Clean v) (hw : Clean w) (h : marshal v = marshal w) : v = w := by
  have := parse_marshal hv
  rw [h, parse_marshal hw] at this
  exact (Option.some.inj this).symm

/-! ### Integers -/

theorem decValue_append (a : Bytes) (d : UInt8) : decValue (a ++ [d]) = 10 * decValue a + (d.toNat - 0x30) := by
  unfold decValue; rw [List.foldl_append]; rfl

theorem digitChar_byte {d : Nat} (h : d < 10) : (Nat.digitChar d).toNat.toUInt8.toNat = 0x30 + d := by
  revert d; decide

theorem formatNat_digits (n : Nat) : IsDigits (formatNat n) n := by
  induction n using Nat.strongRecOn with
  | _ n ih =>
    by_cases hn : n < 10
    · have e : formatNat n = [(Nat.digitChar n).toNat.toUInt8] := by
        unfold formatNat; rw [Nat.toDigits_of_lt_base hn]; rfl
      have hb := digitChar_byte hn
      rw [e]
      refine ⟨by simp, ?_, by simp, ?_⟩
      · intro d hd
        simp only [List.mem_singleton] at hd
        subst hd; omega
      · unfold decValue
        simp only [List.foldl_cons, List.foldl_nil]; omega
    · have e : formatNat n = formatNat (n / 10) ++ [(Nat.digitChar (n % 10)).toNat.toUInt8] := by
        unfold formatNat
        rw [Nat.toDigits_of_base_le (by omega) (by omega)]
        simp
      obtain ⟨h1, h2, h3, h4⟩ := ih (n / 10) (by omega)
      have hb := digitChar_byte (Nat.mod_lt n (by omega : 0 < 10))
      rw [e]
      refine ⟨by simp, ?_, ?_, ?_⟩
      · intro d hd
        rcases List.mem_append.mp hd with hd | hd
        · exact h2 d hd
        · simp only [List.mem_singleton] at hd
          subst hd; omega
      · intro hh
        exfalso
        cases hf : formatNat (n / 10) with
        | nil => exact h1 hf
        | cons a b =>
          rw [hf] at hh h3 h4
          have := h3 (by simpa using hh)
          rw [this] at h4
          have : decValue [0x30] = 0 := by decide
          omega
      · rw [decValue_append, h4]; omega

theorem formatInt_decimal (n : Int) : IsDecimal (formatInt n) n := by
  cases n with
  | ofNat n => exact Or.inl ⟨n, rfl, formatNat_digits n⟩
  | negSucc n => exact Or.inr ⟨n + 1, formatNat (n + 1), by rw [Int.negSucc_eq]; rfl, by omega, rfl, formatNat_digits _⟩

theorem decVal_eq {ds : Bytes} (h : ∀ d ∈ ds, 0x30 ≤ d.toNat ∧ d.toNat ≤ 0x39) : parseInt.decVal ds = decValue ds := by
  unfold parseInt.decVal decValue
  generalize 0 = a
  induction ds generalizing a with
  | nil => rfl
  | cons d ds ih =>
    rw [List.foldl_cons, List.foldl_cons, ih (fun x hx => h x (by simp [hx]))]
    have := h d (by simp)
    rw [UInt8.toNat_sub_of_le _ _ (by rw [UInt8.le_iff_toNat_le]; exact this.1), Nat.mul_comm]
    rfl

theorem parseInt_decimal {t : Bytes} {n : Int} (h : IsDecimal t n) (h1 : -(2 ^ 63) ≤ n) (h2 : n < 2 ^ 63) : parseInt t = some n := by
  rcases h with ⟨k, rfl, hd⟩ | ⟨k, ds, rfl, hk, rfl, hd⟩
  · have hne : ∀ x, t ≠ 0x2d :: x := by
      rintro x rfl
      have := hd.2.1 0x2d (by simp)
      revert this; decide
    have hall : t.all isDigit = true := List.all_eq_true.mpr fun d h => digits_isDigit (hd.2.1 d h)
    unfold parseInt
    split
    · exact absurd rfl (hne _)
    · rw [decVal_eq hd.2.1, hd.2.2.2, if_pos ⟨hd.1, hall, by omega⟩]
  · have hall : ds.all isDigit = true := List.all_eq_true.mpr fun d h => digits_isDigit (hd.2.1 d h)
    unfold parseInt
    simp only
    rw [decVal_eq hd.2.1, hd.2.2.2, if_pos ⟨hd.1, hall, by omega⟩]

theorem formatInt_inj {a b : Int} (h : formatInt a = formatInt b) : a = b := by
  have h1 := formatInt_decimal a
  have h2 := formatInt_decimal b
  rw [← h] at h2
  rcases h1 with ⟨k, rfl, hd⟩ | ⟨k, ds, rfl, hk, e, hd⟩ <;> rcases h2 with ⟨k', rfl, hd'⟩ | ⟨k', ds', rfl, hk', e', hd'⟩
  · rw [← hd.2.2.2, ← hd'.2.2.2]
  · rw [e'] at hd
    have := hd.2.1 0x2d (by simp)
    exact absurd this (by decide)
  · rw [e] at hd'
    have := hd'.2.1 0x2d (by simp)
    exact absurd this (by decide)
  · rw [e] at e'
    simp only [List.cons.injEq, true_and] at e'
    subst e'
    rw [← hd.2.2.2, ← hd'.2.2.2]

end Verif.Json
