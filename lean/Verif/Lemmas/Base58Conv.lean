import Verif.Lemmas.Base58

/-! Base conversion on digit lists and the functional characterisation of the Base58 coder. -/

namespace Verif.Base58
open Verif Verif.Spec

/-- Leading zeros of a digit list. -/
def lz (ds : List Nat) : Nat := (ds.takeWhile (· == 0)).length

/-- Convert a digit list from base `a` to base `b`, keeping leading zeros. -/
def conv (a b : Nat) (ds : List Nat) : List Nat :=
  List.replicate (lz ds) 0 ++ (Nat.digits b (horner a 0 ds)).reverse

theorem lz_split (ds : List Nat) : ds = List.replicate (lz ds) 0 ++ ds.dropWhile (· == 0) := by
  induction ds with
  | nil => rfl
  | cons d ds ih =>
    by_cases h : d = 0
    · subst h
      have : lz (0 :: ds) = lz ds + 1 := by simp [lz]
      rw [this, List.replicate_succ]
      simpa using ih
    · simp [lz, h]

theorem lz_replicate_append (z : Nat) (r : List Nat) (hr : ∀ x ∈ r.head?, x ≠ 0) :
    lz (List.replicate z 0 ++ r) = z := by
  induction z with
  | zero =>
    cases r with
    | nil => rfl
    | cons x xs =>
      have hx : x ≠ 0 := hr x (by simp)
      simp [lz, hx]
  | succ z ih => simp [List.replicate_succ, lz] at ih ⊢; exact ih

theorem dropWhile_head (ds : List Nat) : ∀ x ∈ (ds.dropWhile (· == 0)).head?, x ≠ 0 := by
  induction ds with
  | nil => simp
  | cons d ds ih =>
    by_cases h : d = 0
    · subst h; simpa using ih
    · simp [h]

theorem horner_replicate (m z : Nat) (r : List Nat) :
    horner m 0 (List.replicate z 0 ++ r) = horner m 0 r := by
  induction z with
  | zero => rfl
  | succ z ih => simpa [List.replicate_succ, horner] using ih

theorem digits_reverse_head (b v : Nat) : ∀ x ∈ (Nat.digits b v).reverse.head?, x ≠ 0 := by
  intro x hx
  rw [List.head?_reverse] at hx
  by_cases hv : v = 0
  · subst hv; simp at hx
  · have hne : Nat.digits b v ≠ [] := Nat.digits_ne_nil_iff_ne_zero.mpr hv
    rw [List.getLast?_eq_getLast_of_ne_nil hne] at hx
    simp only [Option.mem_def, Option.some.injEq] at hx
    rw [← hx]
    exact Nat.getLast_digit_ne_zero b hv

theorem horner_digits (b v : Nat) : horner b 0 (Nat.digits b v).reverse = v := by
  rw [horner_eq]; simp [Nat.ofDigits_digits]

theorem digits_horner {a : Nat} (ha : 2 ≤ a) (r : List Nat) (hr : ∀ x ∈ r.head?, x ≠ 0)
    (hlt : ∀ d ∈ r, d < a) : (Nat.digits a (horner a 0 r)).reverse = r := by
  rw [horner_eq]
  simp only [Nat.zero_mul, Nat.zero_add]
  rw [Nat.digits_ofDigits a (by omega) r.reverse (by simpa using hlt)]
  · simp
  · intro hne
    rw [List.getLast_reverse]
    have hne' : r ≠ [] := by simpa using hne
    exact hr _ (by rw [List.head?_eq_some_head hne']; simp)

theorem conv_conv {a b : Nat} (ha : 2 ≤ a) (ds : List Nat) (h : ∀ d ∈ ds, d < a) :
    conv b a (conv a b ds) = ds := by
  have hz : lz (conv a b ds) = lz ds := lz_replicate_append _ _ (digits_reverse_head _ _)
  have hv : horner b 0 (conv a b ds) = horner a 0 ds := by
    unfold conv; rw [horner_replicate, horner_digits]
  rw [conv, hz, hv]
  have hs := lz_split ds
  have hh : horner a 0 ds = horner a 0 (ds.dropWhile (· == 0)) := by
    conv_lhs => rw [hs]
    rw [horner_replicate]
  rw [hh, digits_horner ha _ (dropWhile_head ds)]
  · exact hs.symm
  · intro d hd; exact h d ((List.dropWhile_suffix _).subset hd)

theorem conv_lt {a b : Nat} (hb : 2 ≤ b) (ds : List Nat) : ∀ d ∈ conv a b ds, d < b := by
  intro d hd
  unfold conv at hd
  rw [List.mem_append] at hd
  rcases hd with h | h
  · have := List.eq_of_mem_replicate h; omega
  · exact Nat.digits_lt_base (by omega) (List.mem_reverse.mp h)

theorem horner_toNat (b : Bytes) : horner 256 0 (b.map UInt8.toNat) = beNat b := by
  rw [horner_eq]
  simp only [Nat.zero_mul, Nat.zero_add, beNat, ← List.map_reverse]
  generalize b.reverse = r
  induction r with
  | nil => rfl
  | cons x xs ih => simp [leNat, Nat.ofDigits_cons, ih]

theorem lz_toNat (b : Bytes) : lz (b.map UInt8.toNat) = leadingZeros b := by
  unfold lz leadingZeros
  induction b with
  | nil => rfl
  | cons x xs ih =>
    by_cases h : x = 0
    · subst h; simpa using ih
    · have : ¬ x.toNat = 0 := fun h2 => h (UInt8.toNat_inj.mp (by simpa using h2))
      simp [h, this]

theorem base58Digits_eq (b : Bytes) : base58Digits b = conv 256 58 (b.map UInt8.toNat) := by
  rw [base58Digits, conv, lz_toNat, horner_toNat]

theorem encode_eq {α : Type} (alph : List α) (hlen : alph.length = 58) (b : Bytes) :
    encode alph b = symbols alph (base58Digits b) := by
  have hst : (List.replicate (b.length * 138 / 100 + 1) 0, 0) = stateOf 58 (b.length * 138 / 100 + 1) 0 := by
    simp [stateOf, fixed_zero, nd_zero]
  have hdl : (b.drop (leadingZeros b)).length ≤ b.length := by simp
  have hloop := encLoop_spec (b.length * 138 / 100 + 1) (b.drop (leadingZeros b)) 0 0 (by simp) (by
    apply Nat.add_le_add_right
    apply Nat.div_le_div_right
    apply Nat.mul_le_mul_right
    omega)
  have hval : horner 256 0 ((b.drop (leadingZeros b)).map UInt8.toNat) = beNat b := by
    rw [← horner_toNat b]
    have hs := lz_split (b.map UInt8.toNat)
    have h2 : (b.drop (leadingZeros b)).map UInt8.toNat = (b.map UInt8.toNat).drop (lz (b.map UInt8.toNat)) := by
      rw [lz_toNat, List.map_drop]
    rw [h2]
    conv_rhs => rw [hs]
    rw [horner_replicate]
    congr 1
    conv_lhs => rw [hs]
    rw [lz_replicate_append _ _ (dropWhile_head _)]
    simp
  have hnd : nd 58 (beNat b) ≤ b.length * 138 / 100 + 1 :=
    nd_le (by omega) (by omega) pow_ineq_enc (beNat_lt b)
  unfold encode
  rw [if_neg (by omega)]
  simp only [hst]
  unfold leadingZeros at hloop hval
  rw [hloop, hval]
  simp only [stateOf, base58Digits, leadingZeros]
  rw [fixed_take 58 (by omega) _ _ hnd]

theorem zeroPrefix_eq {α : Type} [DecidableEq α] (alph : List α) (hal : IsAlphabet alph) (t : List α)
    (ht : ∀ c ∈ t, c ∈ alph) :
    (t.takeWhile (fun c => alph[0]? == some c)).length = lz (t.map (alph.idxOf ·)) := by
  have h0 : 0 < alph.length := by rw [hal.length]; omega
  induction t with
  | nil => rfl
  | cons c cs ih =>
    have hcs := ih (fun x hx => ht x (by simp [hx]))
    have hc : c ∈ alph := ht c (by simp)
    have key : alph[0]? = some c ↔ alph.idxOf c = 0 := by
      rw [List.getElem?_eq_getElem h0, Option.some.injEq]
      constructor
      · intro h; rw [← h]; exact hal.nodup.idxOf_getElem 0 h0
      · intro h
        have := List.getElem_idxOf (x := c) (xs := alph) (List.idxOf_lt_length_of_mem hc)
        simpa [h] using this
    by_cases h : alph[0]? = some c
    · have h2 := key.mp h
      simp only [lz, List.map_cons, List.takeWhile_cons, h, h2, beq_self_eq_true, if_true,
        List.length_cons] at hcs ⊢
      rw [← hcs]
    · have h2 : ¬ alph.idxOf c = 0 := fun hh => h (key.mpr hh)
      have h3 : (alph[0]? == some c) = false := by simpa using h
      simp [lz, h2, h3]

theorem decode_eq {α : Type} [DecidableEq α] (alph : List α) (hal : IsAlphabet alph) (t : List α)
    (ht : ∀ c ∈ t, c ∈ alph) :
    decode alph t = .ok ((conv 58 256 (t.map (alph.idxOf ·))).map UInt8.ofNat) := by
  have hst : (List.replicate (t.length * 733 / 1000 + 1) 0, 0) = stateOf 256 (t.length * 733 / 1000 + 1) 0 := by
    simp [stateOf, fixed_zero, nd_zero]
  have hloop := decLoop_spec alph hal.length (t.length * 733 / 1000 + 1) t 0 0 (by simp) (by simp) ht
  have hlt : horner 58 0 (t.map (alph.idxOf ·)) < 58 ^ t.length := by
    have := horner_lt (m := 58) (t.map (alph.idxOf ·)) 0 0 (by
      intro d hd
      obtain ⟨c, hc, rfl⟩ := List.mem_map.mp hd
      rw [← hal.length]; exact List.idxOf_lt_length_of_mem (ht c hc)) (by simp)
    simpa using this
  have hnd : nd 256 (horner 58 0 (t.map (alph.idxOf ·))) ≤ t.length * 733 / 1000 + 1 :=
    nd_le (by omega) (by omega) pow_ineq_dec hlt
  unfold decode
  rw [if_neg (by rw [hal.length]; simp)]
  simp only [hst]
  rw [hloop]
  simp only [stateOf]
  rw [fixed_take 256 (by omega) _ _ hnd, zeroPrefix_eq alph hal t ht]
  simp [conv]

theorem decode_err {α : Type} [DecidableEq α] (alph : List α) (hal : IsAlphabet alph) (t : List α)
    (ht : ¬ ∀ c ∈ t, c ∈ alph) : decode alph t = .err := by
  have hst : (List.replicate (t.length * 733 / 1000 + 1) 0, 0) = stateOf 256 (t.length * 733 / 1000 + 1) 0 := by
    simp [stateOf, fixed_zero, nd_zero]
  have hloop := decLoop_err alph hal.length (t.length * 733 / 1000 + 1) t 0 0 (by simp) (by simp) ht
  unfold decode
  rw [if_neg (by rw [hal.length]; simp)]
  simp only [hst]
  rw [hloop]

/-- `symbols` and `idxOf` are inverse. -/
theorem idxOf_symbols {α : Type} [DecidableEq α] (alph : List α) (hal : IsAlphabet alph) :
    ∀ (ds : List Nat) (t : List α), symbols alph ds = .ok t →
      t.map (alph.idxOf ·) = ds ∧ ∀ c ∈ t, c ∈ alph
  | [], t, h => by simp [symbols] at h; subst h; simp
  | d :: ds, t, h => by
    unfold symbols at h
    split at h
    · rename_i c cs h1 h2
      cases h
      obtain ⟨ih1, ih2⟩ := idxOf_symbols alph hal ds cs h2
      unfold index at h1
      split at h1
      · rename_i x hx
        cases h1
        have hd : d < alph.length := by
          by_contra hh; rw [List.getElem?_eq_none (by omega)] at hx; cases hx
        rw [List.getElem?_eq_getElem hd] at hx
        cases hx
        refine ⟨?_, ?_⟩
        · simp [ih1, hal.nodup.idxOf_getElem d hd]
        · intro y hy
          rcases List.mem_cons.mp hy with h | h
          · subst h; simp
          · exact ih2 y h
      · cases h1
    · cases h

theorem symbols_idxOf {α : Type} [DecidableEq α] (alph : List α) (t : List α) (ht : ∀ c ∈ t, c ∈ alph) :
    symbols alph (t.map (alph.idxOf ·)) = .ok t := by
  induction t with
  | nil => rfl
  | cons c cs ih =>
    have hc := List.idxOf_lt_length_of_mem (ht c (by simp))
    have ih' := ih (fun x hx => ht x (by simp [hx]))
    simp only [List.map_cons, symbols, ih', index_ok hc]
    simp

theorem map_ofNat_toNat (ds : List Nat) (h : ∀ d ∈ ds, d < 256) :
    (ds.map UInt8.ofNat).map UInt8.toNat = ds := by
  rw [List.map_map]
  conv_rhs => rw [← List.map_id ds]
  apply List.map_congr_left
  intro d hd
  have := h d hd
  simp only [Function.comp, id, UInt8.toNat_ofNat']
  omega

theorem map_toNat_ofNat (b : Bytes) : (b.map UInt8.toNat).map UInt8.ofNat = b := by
  rw [List.map_map]
  conv_rhs => rw [← List.map_id b]
  apply List.map_congr_left
  intro d _
  simp

end Verif.Base58
