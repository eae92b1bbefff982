import Verif.Lemmas.Bech32Lang
import Verif.Lemmas.AddressPanic

namespace Verif.Bech32m
open Verif Verif.PolyMod Verif.Spec.Bech32Lang
open Verif.Base58 (horner horner_append horner_eq horner_lt)

/-- Regrouping five bits to eight without padding is undone by regrouping with padding. -/
theorem conv58_inv {c data : List Nat} (hc : ∀ v ∈ c, v < 32) (h : convertbits c 5 8 false = .ok data) :
    (∀ v ∈ data, v < 256) ∧ convertbits data 8 5 true = .ok c := by
  obtain ⟨h1, h2, h3, h4⟩ := convLoop_spec 5 8 (by omega) c 0 0 (by omega) (by simpa using hc)
  unfold convertbits at h
  set r := convLoop 5 8 0 0 c with hr
  have h4' : horner 32 0 c = horner 256 0 r.1 * 2 ^ r.2.2 + r.2.1 % 2 ^ r.2.2 := by simpa using h4
  have h3' : ∀ d ∈ r.1, d < 256 := by simpa using h3
  simp only [Bool.false_eq_true, if_false] at h
  split at h
  · simp at h
  · rename_i hb
    split at h
    · simp at h
    · rename_i hz
      simp only [Res.ok.injEq] at h
      subst h
      refine ⟨h3', ?_⟩
      obtain ⟨c', c1, c2, c3, c4⟩ := conv85 r.1 h3'
      rw [c1]
      congr 1
      have hlen : c'.length = c.length := by omega
      refine horner_inj (b := 32) (by omega) _ _ hlen c3 hc ?_
      have hbits : 5 * c'.length - 8 * r.1.length = r.2.2 := by omega
      rw [c4, h4', hbits]
      have hzero : r.2.1 % 2 ^ r.2.2 = 0 := by
        rw [not_not, and_mask, Nat.shiftLeft_eq] at hz
        have e8 : 2 ^ 8 = 2 ^ r.2.2 * 2 ^ (8 - r.2.2) := by rw [← pow_add]; congr 1; omega
        rw [e8, Nat.mul_mod_mul_right] at hz
        rcases Nat.mul_eq_zero.mp hz with h | h
        · exact h
        · exact absurd h (by positivity)
      rw [hzero, Nat.add_zero]

theorem lower_fixed (t : Bytes) : t.map toLower = t ↔ ∀ c ∈ t, ¬ Capital c := by
  have key : ∀ c : UInt8, toLower c = c ↔ ¬ Capital c := by apply Hex.u8_forall; decide +kernel
  induction t with
  | nil => simp
  | cons x xs ih => simp [key, ih]

theorem upper_fixed (t : Bytes) : t.map toUpper = t ↔ ∀ c ∈ t, ¬ Small c := by
  have key : ∀ c : UInt8, toUpper c = c ↔ ¬ Small c := by apply Hex.u8_forall; decide +kernel
  induction t with
  | nil => simp
  | cons x xs ih => simp [key, ih]

theorem oneCase_lower (t : Bytes) : OneCase t ↔ ¬ (t.map toLower ≠ t ∧ t.map toUpper ≠ t) := by
  rw [Ne, Ne, lower_fixed, upper_fixed]
  unfold OneCase
  tauto

/-- The characters of the alphabet, in small letters. -/
theorem revAll_std : ∀ (d : Bytes) (vs : List Nat), revAll Bech32.stdAlphabet d = some vs ↔ List.Forall₂ (fun c v => alphabet[v]? = some c) d vs
  | [], vs => by
    simp only [revAll, Option.some.injEq, List.forall₂_nil_left_iff]
    exact eq_comm
  | c :: cs, vs => by
    have ha : Bech32.stdAlphabet = alphabet := by decide +kernel
    have key : ∀ c : UInt8, ∀ v : Fin 32, (if c ∈ alphabet then some (alphabet.idxOf c) else none) = some v.val ↔ alphabet[v.val]? = some c := by
      apply Hex.u8_forall; decide +kernel
    have key' : ∀ v : Nat, (if c ∈ alphabet then some (alphabet.idxOf c) else none) = some v ↔ alphabet[v]? = some c := by
      intro v
      by_cases hv : v < 32
      · exact key c ⟨v, hv⟩
      · have hl : alphabet.length = 32 := by decide +kernel
        rw [List.getElem?_eq_none (by omega)]
        simp only [reduceCtorEq, iff_false]
        split
        · rename_i hm
          have := List.idxOf_lt_length_of_mem hm
          intro he
          simp only [Option.some.injEq] at he
          omega
        · simp
    have ih := revAll_std cs
    rw [ha] at ih
    unfold revAll
    rw [ha, List.forall₂_cons_left_iff]
    constructor
    · intro h
      split at h
      · rename_i v ws h1 h2
        simp only [Option.some.injEq] at h
        exact ⟨v, ws, (key' v).mp h1, (ih ws).mp h2, h.symm⟩
      · simp at h
    · rintro ⟨v, ws, h1, h2, rfl⟩
      rw [(key' v).mpr h1, (ih ws).mpr h2]

theorem decode_iff (t hrp : Bytes) (data : List Nat) (spec : Spec) : decode t Bech32.stdAlphabet = .ok (hrp, data, spec) ↔
    t.length ≤ 90 ∧ OneCase t ∧ ∃ d vs, t.map toLower = hrp ++ 0x31 :: d ∧ hrp ≠ [] ∧ (∀ c ∈ hrp, 33 ≤ c.toNat ∧ c.toNat ≤ 126) ∧
      List.Forall₂ (fun c v => alphabet[v]? = some c) d vs ∧ 6 ≤ vs.length ∧ verifyChecksum hrp vs = some spec ∧ data = vs.take (vs.length - 6) := by
  have hlt : ∀ c : UInt8, (decide (c < 33) || decide (c > 126)) = true ↔ ¬ (33 ≤ c.toNat ∧ c.toNat ≤ 126) := by
    apply Hex.u8_forall; decide +kernel
  constructor
  · intro h
    unfold decode at h
    simp only at h
    split_ifs at h with h1 h2
    split at h
    · cases h
    · rename_i pos hpos
      split_ifs at h with h3 h4 h5
      split at h
      · cases h
      · rename_i vs hvs
        split at h
        · cases h
        · rename_i sp hsp
          cases h
          have hf := (revAll_std _ _).mp hvs
          refine ⟨by omega, (oneCase_lower t).mpr h2, _, vs, lastSep_split hpos, ?_, ?_, hf, ?_, hsp, rfl⟩
          · intro e
            have := congrArg List.length e
            simp only [List.length_take, List.length_map, List.length_nil] at this h4
            omega
          · intro c hc
            by_contra hn
            exact h5 (List.any_eq_true.mpr ⟨c, hc, (hlt c).mpr hn⟩)
          · rw [← hf.length_eq]
            simp only [List.length_drop, List.length_map] at h4 ⊢
            omega
  · rintro ⟨h1, h2, d, vs, h3, h4, h5, h6, h7, h8, rfl⟩
    have hd : ∀ c ∈ d, c ≠ 0x31 := by
      intro c hc
      have key : ∀ c : UInt8, c ∈ alphabet → c ≠ 0x31 := by apply Hex.u8_forall; decide +kernel
      have : ∀ {d : Bytes} {vs : List Nat}, List.Forall₂ (fun c v => alphabet[v]? = some c) d vs → ∀ c ∈ d, c ∈ alphabet := by
        intro d vs h
        induction h with
        | nil => simp
        | cons h _ ih =>
          intro c hc
          rcases List.mem_cons.mp hc with rfl | hc
          · exact List.mem_of_getElem? h
          · exact ih c hc
      exact key c (this h6 c hc)
    have hl := congrArg List.length h3
    simp only [List.length_map, List.length_append, List.length_cons] at hl
    have hdl := h6.length_eq
    have hp := List.length_pos_iff.mpr h4
    have hsep : lastSep (t.map toLower) = some hrp.length := by
      rw [h3, show hrp ++ 0x31 :: d = hrp ++ [0x31] ++ d by simp]
      exact lastSep_append hrp d hd
    unfold decode
    simp only
    rw [if_neg (by omega), if_neg ((oneCase_lower t).mp h2)]
    simp only [hsep, List.length_map]
    rw [if_neg (by omega), if_neg (by omega)]
    have e1 : (t.map toLower).take hrp.length = hrp := by rw [h3, List.take_left]
    have e2 : (t.map toLower).drop (hrp.length + 1) = d := by
      rw [h3, show hrp ++ 0x31 :: d = (hrp ++ [0x31]) ++ d by simp, List.drop_left' (by simp)]
    rw [e1, e2, (revAll_std d vs).mpr h6, if_neg]
    · simp only [h8]
    · intro hc
      obtain ⟨c, hc, hc'⟩ := List.any_eq_true.mp hc
      exact (hlt c).mp hc' (h5 c hc)

/-- The checksum is determined by the rest and the variant. -/
theorem checksum_unique (p : Bytes) (data cs : List Nat) (spec : Spec) (hd : ∀ v ∈ data, v < 32) (hc : ∀ v ∈ cs, v < 32) (hl : cs.length = 6)
    (h : verifyChecksum p (data ++ cs) = some spec) : cs = createChecksum p data spec := by
  have h2 := verify_create p data hd spec
  have e : polymod (hrpExpand p ++ (data ++ cs)) = polymod (hrpExpand p ++ (data ++ createChecksum p data spec)) := by
    have key : ∀ x, verifyChecksum p x = some spec → polymod (hrpExpand p ++ x) = if spec = .bech32m then bech32mConst else 1 := by
      intro x hx
      unfold verifyChecksum at hx
      simp only at hx
      split_ifs at hx with a b <;> simp only [Option.some.injEq] at hx <;> subst hx <;> simp [*]
    rw [key _ h, key _ h2]
  unfold polymod at e
  rw [← List.append_assoc, ← List.append_assoc] at e
  refine run_tail_inj bech32Code 1 (hrpExpand p ++ data) cs (createChecksum p data spec) ?_ hc (symbolsOf_lt _ _) ?_ e
  · rw [hl]; exact (symbolsOf_length _ _).symm
  · rw [hl]; decide

end Verif.Bech32m
