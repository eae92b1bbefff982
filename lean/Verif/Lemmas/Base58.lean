import Verif.Model.Base58
import Verif.Spec.Base58
import Verif.Lemmas.Base
import Mathlib.Data.Nat.Digits.Lemmas

namespace Verif.Base58
open Verif Verif.Spec

/-- The `n` least significant base-`b` digits of `v`. -/
def fixed (b : Nat) : Nat → Nat → List Nat
  | 0, _ => []
  | n + 1, v => v % b :: fixed b n (v / b)

/-- Number of digits. -/
def nd (b v : Nat) : Nat := (Nat.digits b v).length

theorem nd_zero (b : Nat) : nd b 0 = 0 := by simp [nd]

theorem nd_pos {b v : Nat} (hb : 2 ≤ b) (hv : v ≠ 0) : nd b v = nd b (v / b) + 1 := by
  unfold nd
  rw [Nat.digits_def' (by omega) (by omega)]
  simp

theorem fixed_zero (b n : Nat) : fixed b n 0 = List.replicate n 0 := by
  induction n with
  | zero => rfl
  | succ n ih => simp [fixed, ih, List.replicate_succ]

theorem fixed_take (b : Nat) (hb : 2 ≤ b) : ∀ n v, nd b v ≤ n → (fixed b n v).take (nd b v) = Nat.digits b v
  | 0, v, h => by
    have : Nat.digits b v = [] := by
      have : nd b v = 0 := by omega
      exact List.eq_nil_of_length_eq_zero this
    simp [fixed, this]
  | n + 1, v, h => by
    by_cases hv : v = 0
    · subst hv; simp [nd]
    · rw [nd_pos hb hv] at h ⊢
      have ih := fixed_take b hb n (v / b) (by omega)
      rw [fixed, List.take_succ_cons, ih, Nat.digits_def' (b := b) (n := v) (by omega) (by omega)]

theorem carryLoop_fixed {word mul tb : Nat} (hm : 0 < mul) (ht : 2 ≤ tb) (ht2 : tb ≤ 256)
    (hw : mul * tb ≤ word) :
    ∀ (n v carry j used : Nat), carry < mul → nd tb (mul * v + carry) ≤ n → used = j + nd tb v →
      carryLoop word mul tb used j carry (fixed tb n v) =
        .ok (fixed tb n (mul * v + carry), j + nd tb (mul * v + carry))
  | 0, v, carry, j, used, hc, hn, hu => by
    have hN : mul * v + carry = 0 := by
      by_contra h
      rw [nd_pos ht h] at hn; omega
    have hv : v = 0 := by
      rcases Nat.eq_zero_or_pos v with h | h
      · exact h
      · have := Nat.mul_pos hm h; omega
    have hc0 : carry = 0 := by omega
    subst hv hc0
    simp [nd_zero] at hu
    simp [fixed, carryLoop, hu, nd_zero]
  | n + 1, v, carry, j, used, hc, hn, hu => by
    by_cases hN : mul * v + carry = 0
    · have hv : v = 0 := by
        rcases Nat.eq_zero_or_pos v with h | h
        · exact h
        · have := Nat.mul_pos hm h; omega
      have hc0 : carry = 0 := by omega
      subst hv hc0
      simp [nd_zero] at hu
      simp [fixed, carryLoop, hu, nd_zero]
    · have hcond : carry ≠ 0 ∨ j < used := by
        by_cases hv : v = 0
        · left; subst hv; simpa using hN
        · right; rw [hu, nd_pos ht hv]; omega
      have hd : v % tb < tb := Nat.mod_lt _ (by omega)
      have hcb : carry + mul * (v % tb) < mul * tb := by
        have : mul * (v % tb) + mul ≤ mul * tb := by
          rw [← Nat.mul_succ]; exact Nat.mul_le_mul_left _ hd
        omega
      have hmod : (carry + mul * (v % tb)) % word = carry + mul * (v % tb) :=
        Nat.mod_eq_of_lt (by omega)
      have hdec : mul * v + carry = (carry + mul * (v % tb)) + tb * (mul * (v / tb)) := by
        have h := Nat.mod_add_div v tb
        calc mul * v + carry = mul * (v % tb + tb * (v / tb)) + carry := by rw [h]
          _ = _ := by ring
      have hdiv : (mul * v + carry) / tb = mul * (v / tb) + (carry + mul * (v % tb)) / tb := by
        rw [hdec, Nat.add_mul_div_left _ _ (by omega)]; omega
      have hmod2 : (mul * v + carry) % tb = (carry + mul * (v % tb)) % tb := by
        rw [hdec, Nat.add_mul_mod_self_left]
      rw [nd_pos ht hN, hdiv] at hn
      have hc' : (carry + mul * (v % tb)) / tb < mul := by
        apply Nat.div_lt_of_lt_mul; rw [Nat.mul_comm tb mul]; exact hcb
      have hm2 : (carry + mul * (v % tb)) % tb % 256 = (carry + mul * (v % tb)) % tb :=
        Nat.mod_eq_of_lt (lt_of_lt_of_le (Nat.mod_lt _ (by omega)) ht2)
      by_cases hv : v = 0
      · subst hv
        -- the remaining cells are unused: `used = j`
        have hu' : used = j := by simpa [nd_zero] using hu
        simp only [Nat.mul_zero, Nat.zero_add, Nat.zero_mod, Nat.zero_div, Nat.add_zero] at *
        have hc0 : carry ≠ 0 := by tauto
        have ih := carryLoop_unused hm ht ht2 hw n (carry / tb) (j + 1) used hc' (by omega) (by omega)
        simp only [fixed, carryLoop, Nat.zero_mod, Nat.zero_div, Nat.mul_zero, Nat.add_zero, hmod, hm2]
        rw [if_pos hcond, ih, nd_pos ht hN]
        simp only [Res.ok.injEq, Prod.mk.injEq, true_and]
        omega
      · have ih := carryLoop_fixed hm ht ht2 hw n (v / tb) ((carry + mul * (v % tb)) / tb) (j + 1) used hc'
          (by omega) (by rw [hu, nd_pos ht hv]; omega)
        simp only [fixed, carryLoop, hmod, hm2]
        rw [if_pos hcond, ih, nd_pos ht hN, hdiv, hmod2]
        simp only [Res.ok.injEq, Prod.mk.injEq, true_and]
        omega
where
  carryLoop_unused {word mul tb : Nat} (hm : 0 < mul) (ht : 2 ≤ tb) (ht2 : tb ≤ 256)
    (hw : mul * tb ≤ word) :
    ∀ (n carry j used : Nat), carry < mul → nd tb carry ≤ n → used ≤ j →
      carryLoop word mul tb used j carry (fixed tb n 0) =
        .ok (fixed tb n carry, j + nd tb carry)
  | 0, carry, j, used, hc, hn, hu => by
    have hc0 : carry = 0 := by
      by_contra h
      rw [nd_pos ht h] at hn; omega
    subst hc0
    simp [fixed, carryLoop, nd_zero]; omega
  | n + 1, carry, j, used, hc, hn, hu => by
    by_cases hc0 : carry = 0
    · subst hc0
      have : ¬ (j < used) := by omega
      simp [fixed, carryLoop, nd_zero, this]
    · have hcb : carry < word := by
        have : mul * 1 ≤ mul * tb := Nat.mul_le_mul_left _ (by omega)
        omega
      have hm2 : carry % tb % 256 = carry % tb :=
        Nat.mod_eq_of_lt (lt_of_lt_of_le (Nat.mod_lt _ (by omega)) ht2)
      rw [nd_pos ht hc0] at hn
      have ih := carryLoop_unused hm ht ht2 hw n (carry / tb) (j + 1) used
        (lt_of_le_of_lt (Nat.div_le_self _ _) hc) (by omega) (by omega)
      simp only [fixed, carryLoop, Nat.zero_mod, Nat.zero_div, Nat.mul_zero, Nat.add_zero,
        Nat.mod_eq_of_lt hcb, hm2]
      rw [if_pos (Or.inl hc0), ih, nd_pos ht hc0]
      simp only [Res.ok.injEq, Prod.mk.injEq, true_and]
      omega

/-- Scratch-buffer bound: `v < mul^k`, `mul^q ≤ to^p` imply `v` has at most `k*p/q+1` base-`to` digits. -/
theorem nd_le {mul tb k p q v : Nat} (ht : 2 ≤ tb) (hq : 0 < q) (hpq : mul ^ q ≤ tb ^ p)
    (hv : v < mul ^ k) : nd tb v ≤ k * p / q + 1 := by
  by_contra h
  simp only [not_le] at h
  have hnd1 : 1 < nd tb v := Nat.lt_of_le_of_lt (Nat.le_add_left 1 _) h
  have hv0 : v ≠ 0 := by
    intro h0; subst h0; simp [nd_zero] at h
  have h1 : tb ^ (nd tb v - 1) ≤ v := by
    have h3 := Nat.base_pow_length_digits_le tb v (by omega) hv0
    have h4 : tb ^ (nd tb v - 1) * tb = tb ^ nd tb v := by
      rw [← pow_succ]; congr 1; omega
    unfold nd at h4 ⊢
    have h5 : tb * tb ^ ((Nat.digits tb v).length - 1) ≤ tb * v := by
      rw [Nat.mul_comm, h4]; exact h3
    exact Nat.le_of_mul_le_mul_left h5 (by omega)
  have h2 : tb ^ (nd tb v - 1) < mul ^ k := lt_of_le_of_lt h1 hv
  have h3 : (tb ^ (nd tb v - 1)) ^ q < (mul ^ k) ^ q := Nat.pow_lt_pow_left h2 (by omega)
  have h4 : (mul ^ k) ^ q ≤ tb ^ (p * k) := by
    rw [← pow_mul, Nat.mul_comm, pow_mul, pow_mul]
    exact Nat.pow_le_pow_left hpq k
  have h5 : tb ^ ((nd tb v - 1) * q) < tb ^ (p * k) := by
    rw [pow_mul]; exact lt_of_lt_of_le h3 h4
  have h6 : (nd tb v - 1) * q < p * k := (Nat.pow_lt_pow_iff_right (by omega)).mp h5
  have h7 : k * p / q + 1 ≤ nd tb v - 1 := by omega
  have h8 : k * p < (k * p / q + 1) * q := by
    have := Nat.lt_div_mul_add (a := k * p) hq
    rw [Nat.add_mul]; omega
  have h9 : (k * p / q + 1) * q ≤ (nd tb v - 1) * q := Nat.mul_le_mul_right _ h7
  rw [Nat.mul_comm p k] at h6
  omega

/-- State of the outer loops after having consumed digits of value `v`. -/
def stateOf (tb cap v : Nat) : List Nat × Nat := (fixed tb cap v, nd tb v)

/-- Horner value of a most-significant-first digit list continued from `v`. -/
def horner (m : Nat) : Nat → List Nat → Nat
  | v, [] => v
  | v, d :: ds => horner m (m * v + d) ds

theorem horner_lt {m : Nat} : ∀ (ds : List Nat) (v k : Nat), (∀ d ∈ ds, d < m) → v < m ^ k →
    horner m v ds < m ^ (k + ds.length)
  | [], v, k, _, hv => by simpa [horner] using hv
  | d :: ds, v, k, hd, hv => by
    have h1 : d < m := hd d (by simp)
    have h2 : m * v + d < m ^ (k + 1) := by
      have : m * v + m ≤ m * m ^ k := by
        rw [← Nat.mul_succ]; exact Nat.mul_le_mul_left _ hv
      rw [pow_succ']; omega
    have := horner_lt ds (m * v + d) (k + 1) (fun x hx => hd x (by simp [hx])) h2
    simp only [horner, List.length_cons]
    have e : k + (ds.length + 1) = k + 1 + ds.length := by omega
    rw [e]; exact this

theorem horner_append (m : Nat) : ∀ (a b : List Nat) (v : Nat),
    horner m v (a ++ b) = horner m (horner m v a) b
  | [], _, _ => rfl
  | _ :: a, b, v => by simp [horner, horner_append m a b]

theorem horner_eq (m : Nat) : ∀ (ds : List Nat) (v : Nat),
    horner m v ds = v * m ^ ds.length + Nat.ofDigits m ds.reverse
  | [], v => by simp [horner]
  | d :: ds, v => by
    simp only [horner, horner_eq m ds, List.reverse_cons, Nat.ofDigits_append, List.length_cons,
      List.length_reverse, Nat.ofDigits_singleton]
    ring

theorem pow_ineq_enc : 256 ^ 100 ≤ 58 ^ 138 := by norm_num

set_option exponentiation.threshold 2000 in
theorem pow_ineq_dec : 58 ^ 1000 ≤ 256 ^ 733 := by norm_num

theorem encLoop_spec (cap : Nat) : ∀ (bs : Bytes) (v k : Nat), v < 256 ^ k →
    (k + bs.length) * 138 / 100 + 1 ≤ cap →
    encLoop bs (stateOf 58 cap v) = .ok (stateOf 58 cap (horner 256 v (bs.map UInt8.toNat)))
  | [], v, k, hv, hcap => rfl
  | b :: bs, v, k, hv, hcap => by
    have hb := b.toNat_lt
    have hv' : 256 * v + b.toNat < 256 ^ (k + 1) := by rw [pow_succ']; omega
    have hnd : nd 58 (256 * v + b.toNat) ≤ cap := by
      have h := nd_le (p := 138) (q := 100) (tb := 58) (mul := 256) (by omega) (by omega) pow_ineq_enc hv'
      have h2 : (k + 1) * 138 / 100 ≤ (k + (b :: bs).length) * 138 / 100 := by
        apply Nat.div_le_div_right
        apply Nat.mul_le_mul_right
        simp
      omega
    have hstep := carryLoop_fixed (word := 2 ^ 32) (mul := 256) (tb := 58) (by omega) (by omega) (by omega)
      (by norm_num) cap v b.toNat 0 (nd 58 v) (by omega) hnd (by omega)
    simp only [encLoop, stateOf, List.map_cons, horner]
    rw [hstep]
    simp only [Nat.zero_add]
    exact encLoop_spec cap bs _ (k + 1) hv' (by
      have e : k + 1 + bs.length = k + (b :: bs).length := by simp; omega
      rw [e]; exact hcap)

set_option maxRecDepth 8000 in
theorem decLoop_spec {α : Type} [DecidableEq α] (alph : List α) (hlen : alph.length = 58) (cap : Nat) :
    ∀ (cs : List α) (v k : Nat), v < 58 ^ k → (k + cs.length) * 733 / 1000 + 1 ≤ cap → (∀ c ∈ cs, c ∈ alph) →
    decLoop alph cs (stateOf 256 cap v) =
      .ok (stateOf 256 cap (horner 58 v (cs.map (alph.idxOf ·))))
  | [], v, k, hv, hcap, _ => rfl
  | c :: cs, v, k, hv, hcap, hmem => by
    have hc : c ∈ alph := hmem c (by simp)
    have hb : alph.idxOf c < 58 := by rw [← hlen]; exact List.idxOf_lt_length_of_mem hc
    have hv' : 58 * v + alph.idxOf c < 58 ^ (k + 1) := by rw [pow_succ']; omega
    have hnd : nd 256 (58 * v + alph.idxOf c) ≤ cap := by
      have h := nd_le (p := 733) (q := 1000) (tb := 256) (mul := 58) (by omega) (by omega) pow_ineq_dec hv'
      have h2 : (k + 1) * 733 / 1000 ≤ (k + (c :: cs).length) * 733 / 1000 := by
        apply Nat.div_le_div_right
        apply Nat.mul_le_mul_right
        simp
      omega
    have hstep := carryLoop_fixed (word := 2 ^ 64) (mul := 58) (tb := 256) (by omega) (by omega) (by omega)
      (by norm_num) cap v (alph.idxOf c) 0 (nd 256 v) (by omega) hnd (by omega)
    simp only [decLoop, lookup, if_pos hc, stateOf, List.map_cons, horner]
    rw [hstep]
    simp only [Nat.zero_add]
    exact decLoop_spec alph hlen cap cs _ (k + 1) hv' (by
      have e : k + 1 + cs.length = k + (c :: cs).length := by simp; omega
      rw [e]; exact hcap) (fun x hx => hmem x (by simp [hx]))

set_option maxRecDepth 8000 in
/-- A foreign symbol makes the decoder return an error (never a panic). -/
theorem decLoop_err {α : Type} [DecidableEq α] (alph : List α) (hlen : alph.length = 58) (cap : Nat) :
    ∀ (cs : List α) (v k : Nat), v < 58 ^ k → (k + cs.length) * 733 / 1000 + 1 ≤ cap → (¬ ∀ c ∈ cs, c ∈ alph) →
    decLoop alph cs (stateOf 256 cap v) = .err
  | [], v, k, hv, hcap, h => by simp at h
  | c :: cs, v, k, hv, hcap, hmem => by
    by_cases hc : c ∈ alph
    · have hb : alph.idxOf c < 58 := by rw [← hlen]; exact List.idxOf_lt_length_of_mem hc
      have hv' : 58 * v + alph.idxOf c < 58 ^ (k + 1) := by rw [pow_succ']; omega
      have hone := decLoop_spec alph hlen cap [c] v k hv (by
        refine le_trans ?_ hcap
        apply Nat.add_le_add_right
        apply Nat.div_le_div_right
        apply Nat.mul_le_mul_right
        simp) (by simpa using hc)
      have key : decLoop alph (c :: cs) (stateOf 256 cap v)
          = decLoop alph cs (stateOf 256 cap (58 * v + alph.idxOf c)) := by
        simp only [decLoop, lookup, if_pos hc, stateOf, List.map_cons, List.map_nil, horner] at hone ⊢
        cases hx : carryLoop (2 ^ 64) 58 256 (nd 256 v) 0 (alph.idxOf c) (fixed 256 cap v) with
        | ok st => rw [hx] at hone; simp only [Res.ok.injEq] at hone; rw [hone]
        | err => rw [hx] at hone; simp at hone
        | panic => rw [hx] at hone; simp at hone
      rw [key]
      refine decLoop_err alph hlen cap cs _ (k + 1) hv' ?_ ?_
      · have e : k + 1 + cs.length = k + (c :: cs).length := by simp; omega
        rw [e]; exact hcap
      · intro h; apply hmem; intro x hx
        rcases List.mem_cons.mp hx with h1 | h1
        · rw [h1]; exact hc
        · exact h x h1
    · simp [decLoop, lookup, hc]

theorem symbols_eq {α : Type} (alph : List α) (hlen : alph.length = 58) :
    ∀ ds : List Nat, (∀ d ∈ ds, d < 58) → ∃ t, symbols alph ds = .ok t ∧ t.map some = ds.map (fun d => alph[d]?)
  | [], _ => ⟨[], rfl, rfl⟩
  | d :: ds, h => by
    obtain ⟨t, ht, hm⟩ := symbols_eq alph hlen ds (fun x hx => h x (by simp [hx]))
    have hd : d < alph.length := by rw [hlen]; exact h d (by simp)
    refine ⟨alph[d] :: t, ?_, ?_⟩
    · simp [symbols, index_ok hd, ht]
    · simp [hm, hd]

end Verif.Base58
