import Verif.Lemmas.OwKeychain
import Verif.Spec.OwKeychain

/-! Lemmas about derivation path texts. -/

namespace Verif.OwKeychain
open Verif Verif.Spec

theorem digit_range (d : Nat) (hd : d < 10) : (UInt8.ofNat (0x30 + d)).toNat = 0x30 + d := by
  rw [UInt8.toNat_ofNat']; simp; omega

theorem decVal_map (l : List Nat) (h : ∀ d ∈ l, d < 10) :
    decVal ((l.map (fun d => UInt8.ofNat (0x30 + d))).reverse) = Nat.ofDigits 10 l := by
  induction l with
  | nil => rfl
  | cons x xs ih =>
    have hx := digit_range x (h x (by simp))
    have ih' := ih (fun d hd => h d (by simp [hd]))
    unfold decVal at ih' ⊢
    simp only [List.map_cons, List.reverse_cons, List.foldl_append, List.foldl_cons, List.foldl_nil, ih',
      Nat.ofDigits_cons, hx]
    simp; omega

theorem decVal_decimal (n : Nat) : decVal (decimal n) = n := by
  unfold decimal
  split
  · rename_i h; subst h; rfl
  · rw [decVal_map _ (fun d hd => Nat.digits_lt_base (by omega) hd), Nat.ofDigits_digits]

theorem decimal_mem (n : Nat) (x : UInt8) (h : x ∈ decimal n) : 0x30 ≤ x.toNat ∧ x.toNat ≤ 0x39 := by
  unfold decimal at h
  split at h
  · simp at h; subst h; decide
  · rw [List.mem_reverse, List.mem_map] at h
    obtain ⟨d, hd, rfl⟩ := h
    have := Nat.digits_lt_base (by omega) hd
    rw [digit_range d this]; omega

theorem decimal_ne_nil (n : Nat) : decimal n ≠ [] := by
  unfold decimal
  split
  · simp
  · rename_i h; simpa [Nat.digits_eq_nil_iff_eq_zero] using h

theorem atoi_digits (ds : Bytes) (hne : ds ≠ []) (h : ∀ x ∈ ds, 0x30 ≤ x.toNat ∧ x.toNat ≤ 0x39)
    (hv : decVal ds < 2 ^ 63) : atoi ds = some ((decVal ds : Nat) : Int) := by
  cases ds with
  | nil => exact absurd rfl hne
  | cons x xs =>
    have hx := h x (by simp)
    have h1 : x ≠ 0x2d := by rintro rfl; simp at hx
    have h2 : x ≠ 0x2b := by rintro rfl; simp at hx
    have hall : (x :: xs).all (fun d => 0x30 ≤ d && d ≤ 0x39) = true := by
      rw [List.all_eq_true]
      intro d hd
      have := h d hd
      simp only [Bool.and_eq_true, decide_eq_true_eq, UInt8.le_iff_toNat_le]
      exact this
    unfold atoi
    split
    · rename_i neg ds' heq
      split at heq
      · rename_i r hr; cases hr; exact absurd rfl h1
      · rename_i r hr; cases hr; exact absurd rfl h2
      · cases heq
        simp only [List.isEmpty_cons, Bool.false_eq_true, if_false, hall, if_true]
        rw [if_pos (by constructor <;> omega)]

theorem idxOf_last (ds : Bytes) (h : (0x27 : UInt8) ∉ ds) : (ds ++ [0x27]).idxOf 0x27 = ds.length := by
  rw [List.idxOf_append, if_neg h]; simp

theorem toUint32_nat (n : Nat) : toUint32 (n : Int) = UInt32.ofNat n := by
  unfold toUint32
  apply UInt32.toNat_inj.mp
  have : ((n : Int) % 2 ^ 32).toNat = n % 2 ^ 32 := by omega
  rw [this]
  simp [UInt32.toNat_ofNat']

theorem pathIndex_text (s : PathStep) : pathIndex s.text = some s.child := by
  have hq : (0x27 : UInt8) ∉ decimal s.index := by
    intro h; have := decimal_mem _ _ h; simp at this
  have hne := decimal_ne_nil s.index
  have hlt := s.lt
  have hat : atoi (decimal s.index) = some (s.index : Int) := by
    rw [atoi_digits _ hne (fun x hx => decimal_mem _ x hx) (by rw [decVal_decimal]; omega), decVal_decimal]
  unfold pathIndex PathStep.text PathStep.child
  cases hh : s.hardened with
  | true =>
    simp only [if_true]
    rw [if_neg (by simp), if_pos (by rw [idxOf_last _ hq]; simp), List.dropLast_concat, hat]
    simp only [Option.map_some, toUint32_nat, Option.some.injEq]
    apply UInt32.toNat_inj.mp
    simp [UInt32.toNat_add, UInt32.toNat_ofNat']
  | false =>
    simp only [Bool.false_eq_true, if_false, List.append_nil]
    have hpos : 0 < (decimal s.index).length := List.length_pos_iff.mpr hne
    rw [if_neg (by simpa using hne), if_neg (by rw [List.idxOf_eq_length hq]; omega), hat]
    simp [toUint32_nat]

theorem splitOn_append (sep : UInt8) (a : Bytes) (ha : sep ∉ a) (r : Bytes) :
    splitOn sep (a ++ sep :: r) = a :: splitOn sep r := by
  induction a with
  | nil => simp [splitOn]
  | cons x xs ih =>
    have hx : x ≠ sep := fun h => ha (by simp [h])
    have := ih (fun h => ha (by simp [h]))
    simp [splitOn, hx, this]

theorem splitOn_none (sep : UInt8) (a : Bytes) (ha : sep ∉ a) : splitOn sep a = [a] := by
  induction a with
  | nil => simp [splitOn]
  | cons x xs ih =>
    have hx : x ≠ sep := fun h => ha (by simp [h])
    have := ih (fun h => ha (by simp [h]))
    simp [splitOn, hx, this]

theorem text_no_slash (s : PathStep) : (0x2f : UInt8) ∉ s.text := by
  intro h
  unfold PathStep.text at h
  rw [List.mem_append] at h
  rcases h with h | h
  · have := decimal_mem _ _ h; simp at this
  · split at h <;> simp at h

theorem text_no_space (s : PathStep) : (0x20 : UInt8) ∉ s.text := by
  intro h
  unfold PathStep.text at h
  rw [List.mem_append] at h
  rcases h with h | h
  · have := decimal_mem _ _ h; simp at this
  · split at h <;> simp at h

theorem splitOn_path : ∀ (s : PathStep) (l : List PathStep),
    splitOn 0x2f (s.text ++ pathText l) = (s :: l).map PathStep.text
  | s, [] => by simp [pathText, splitOn_none _ _ (text_no_slash s)]
  | s, s' :: l => by
    have : pathText (s' :: l) = 0x2f :: (s'.text ++ pathText l) := by simp [pathText]
    rw [this, splitOn_append _ _ (text_no_slash s), splitOn_path s' l]; rfl

theorem path_no_space (l : List PathStep) : (pathText l).filter (fun b => b ≠ 0x20) = pathText l := by
  rw [List.filter_eq_self]
  intro x hx
  simp only [pathText, List.mem_flatten, List.mem_map] at hx
  obtain ⟨t, ⟨s, _, rfl⟩, hx⟩ := hx
  rcases List.mem_cons.mp hx with rfl | h
  · decide
  · simp only [decide_eq_true_eq]; rintro rfl; exact text_no_space s h

theorem walk_text (step : ExtendedKey → UInt32 → Res ExtendedKey) : ∀ (l : List PathStep) (k : ExtendedKey),
    walk step (l.map PathStep.text) k = l.foldlM (fun k s => step k s.child) k
  | [], k => rfl
  | s :: l, k => by
    simp only [List.map_cons, walk, pathIndex_text, List.foldlM_cons]
    cases h : step k s.child with
    | ok k' => simp only [Res.bind_ok]; exact walk_text step l k'
    | err => rfl
    | panic => rfl

end Verif.OwKeychain
