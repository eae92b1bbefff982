import Verif.Model.SignatureSet
import Verif.Spec.Rfc6979
import Verif.Lemmas.Base
import Verif.Lemmas.OwKeychain
import Verif.Lemmas.BtcSig

/-! Lemmas about `signatureSet` and `eosSignature`. -/

namespace Verif.SigSet
open Verif

theorem q_eq : Spec.Rfc6979.q = Btc.curveOrder := by decide +kernel

/-! ### Words -/

theorem word_step (w : Nat) (a : Bytes) (k : Nat) (h : w * (k + 1) ≤ a.length) :
    beNat (a.take (w * (k + 1))) = beNat (a.take (w * k)) * 256 ^ w + word w a k := by
  have h1 : w * (k + 1) = w * k + w := by ring
  rw [h1, List.take_add, beNat_append]
  congr 2
  rw [List.length_take, List.length_drop, Nat.min_eq_left (by omega)]

theorem word_lt (w : Nat) (a : Bytes) (k : Nat) : word w a k < 256 ^ w := by
  unfold word
  refine lt_of_lt_of_le (beNat_lt _) (Nat.pow_le_pow_right (by norm_num) ?_)
  simp

theorem lex_le {B X x Y y : Nat} (hx : x < B) (hy : y < B) :
    Y * B + y ≤ X * B + x ↔ Y < X ∨ (Y = X ∧ y ≤ x) := by
  rcases lt_trichotomy Y X with h | h | h
  · have : (Y + 1) * B ≤ X * B := Nat.mul_le_mul_right B h
    rw [Nat.add_mul] at this
    constructor
    · intro _; exact Or.inl h
    · intro _; omega
  · subst h; constructor
    · intro _; right; constructor <;> omega
    · rintro (h | h) <;> omega
  · have : (X + 1) * B ≤ Y * B := Nat.mul_le_mul_right B h
    rw [Nat.add_mul] at this
    constructor
    · intro _; omega
    · rintro (h | h) <;> omega

theorem lex_lt {B X x Y y : Nat} (hx : x < B) (hy : y < B) :
    Y * B + y < X * B + x ↔ Y < X ∨ (Y = X ∧ y < x) := by
  rw [← not_le, lex_le hy hx]; omega

theorem lex_eq {B X x Y y : Nat} (hx : x < B) (hy : y < B) :
    Y * B + y = X * B + x ↔ Y = X ∧ y = x := by
  have h1 := lex_le (X := X) (Y := Y) hx hy
  have h2 := lex_le (X := Y) (Y := X) hy hx
  constructor
  · intro h
    have a := h1.mp h.le
    have b := h2.mp h.ge
    omega
  · rintro ⟨rfl, rfl⟩; rfl

theorem value64 (a : Bytes) (h : 32 ≤ a.length) :
    beNat (a.take 32) = ((word 8 a 0 * 256 ^ 8 + word 8 a 1) * 256 ^ 8 + word 8 a 2) * 256 ^ 8 + word 8 a 3 := by
  have e0 := word_step 8 a 0 (by omega)
  have e1 := word_step 8 a 1 (by omega)
  have e2 := word_step 8 a 2 (by omega)
  have e3 := word_step 8 a 3 (by omega)
  simp only [Nat.mul_zero, List.take_zero, beNat_nil, Nat.zero_mul, Nat.zero_add, Nat.mul_one] at e0 e1 e2 e3
  norm_num only at e0 e1 e2 e3 ⊢
  rw [e3, e2, e1, e0]

theorem value32 (a : Bytes) (h : 32 ≤ a.length) :
    beNat (a.take 32) = ((((((word 4 a 0 * 256 ^ 4 + word 4 a 1) * 256 ^ 4 + word 4 a 2) * 256 ^ 4 + word 4 a 3) * 256 ^ 4 +
      word 4 a 4) * 256 ^ 4 + word 4 a 5) * 256 ^ 4 + word 4 a 6) * 256 ^ 4 + word 4 a 7 := by
  have e0 := word_step 4 a 0 (by omega)
  have e1 := word_step 4 a 1 (by omega)
  have e2 := word_step 4 a 2 (by omega)
  have e3 := word_step 4 a 3 (by omega)
  have e4 := word_step 4 a 4 (by omega)
  have e5 := word_step 4 a 5 (by omega)
  have e6 := word_step 4 a 6 (by omega)
  have e7 := word_step 4 a 7 (by omega)
  simp only [Nat.mul_zero, List.take_zero, beNat_nil, Nat.zero_mul, Nat.zero_add, Nat.mul_one] at e0 e1 e2 e3 e4 e5 e6 e7
  norm_num only at e0 e1 e2 e3 e4 e5 e6 e7 ⊢
  rw [e7, e6, e5, e4, e3, e2, e1, e0]

theorem orderBytes_length : orderBytes.length = 32 := by simp [orderBytes]

theorem order_value : beNat (orderBytes.take 32) = Btc.curveOrder := by
  rw [List.take_of_length_le (by rw [orderBytes_length]), orderBytes, beNat_beBytes_of_lt]
  decide +kernel

theorem checkOverflow64_eq (a : Bytes) (h : 32 ≤ a.length) :
    checkOverflow64 a = .ok (decide (Btc.curveOrder ≤ beNat (a.take 32))) := by
  unfold checkOverflow64
  rw [if_neg (by omega)]
  have l := fun k => word_lt 8 a k
  have m := fun k => word_lt 8 orderBytes k
  have h0 : word 8 a 0 ≤ word 8 orderBytes 0 := by
    have e : word 8 orderBytes 0 = 256 ^ 8 - 1 := by decide +kernel
    have := l 0
    omega
  rw [← order_value, value64 a h, value64 orderBytes (by rw [orderBytes_length])]
  simp only [lex_le (l _) (m _), lex_lt (l _) (m _), lex_eq (l _) (m _)]
  generalize word 8 a 0 = a0 at *
  generalize word 8 a 1 = a1 at *
  generalize word 8 a 2 = a2 at *
  generalize word 8 a 3 = a3 at *
  generalize word 8 orderBytes 0 = n0 at *
  generalize word 8 orderBytes 1 = n1 at *
  generalize word 8 orderBytes 2 = n2 at *
  generalize word 8 orderBytes 3 = n3 at *
  clear l m
  congr 1
  rw [Bool.eq_iff_iff]
  simp only [Bool.or_eq_true, Bool.and_eq_true, Bool.not_eq_true', Bool.or_eq_false_iff, decide_eq_true_eq, decide_eq_false_iff_not]
  omega

theorem step_no {B X x Y y : Nat} (hx : x < B) (hy : y < B) :
    (decide (X < Y) || (decide (x < y) && !decide (Y < X))) = decide (X * B + x < Y * B + y) := by
  rw [Bool.eq_iff_iff]
  simp only [Bool.or_eq_true, Bool.and_eq_true, Bool.not_eq_true', decide_eq_true_eq, decide_eq_false_iff_not, lex_lt hy hx]
  omega

theorem step_yes {B X x Y y : Nat} (hx : x < B) (hy : y < B) :
    (decide (Y < X) || (decide (x > y) && !decide (X * B + x < Y * B + y))) = decide (Y * B + y < X * B + x) := by
  rw [Bool.eq_iff_iff]
  simp only [Bool.or_eq_true, Bool.and_eq_true, Bool.not_eq_true', decide_eq_true_eq, decide_eq_false_iff_not, lex_lt hy hx,
    lex_lt hx hy]
  omega

theorem step_last {B X x Y y : Nat} (hx : x < B) (hy : y < B) :
    (decide (Y < X) || (decide (x ≥ y) && !decide (X < Y))) = decide (Y * B + y ≤ X * B + x) := by
  rw [Bool.eq_iff_iff]
  simp only [Bool.or_eq_true, Bool.and_eq_true, Bool.not_eq_true', decide_eq_true_eq, decide_eq_false_iff_not, lex_le hx hy]
  omega

theorem checkOverflow32_eq (a : Bytes) (h : 32 ≤ a.length) :
    checkOverflow32 a = .ok (decide (Btc.curveOrder ≤ beNat (a.take 32))) := by
  unfold checkOverflow32
  rw [if_neg (by omega)]
  have l := fun k => word_lt 4 a k
  have m := fun k => word_lt 4 orderBytes k
  have h0 : word 4 a 0 ≤ word 4 orderBytes 0 := by
    have e : word 4 orderBytes 0 = 256 ^ 4 - 1 := by decide +kernel
    have := l 0
    omega
  have h1 : word 4 a 1 ≤ word 4 orderBytes 1 := by
    have e : word 4 orderBytes 1 = 256 ^ 4 - 1 := by decide +kernel
    have := l 1
    omega
  have h2 : word 4 a 2 ≤ word 4 orderBytes 2 := by
    have e : word 4 orderBytes 2 = 256 ^ 4 - 1 := by decide +kernel
    have := l 2
    omega
  rw [← order_value, value32 a h, value32 orderBytes (by rw [orderBytes_length])]
  have e0 : (decide (word 4 a 0 < word 4 orderBytes 0) || decide (word 4 a 1 < word 4 orderBytes 1) ||
      decide (word 4 a 2 < word 4 orderBytes 2) || decide (word 4 a 3 < word 4 orderBytes 3)) =
      decide (((word 4 a 0 * 256 ^ 4 + word 4 a 1) * 256 ^ 4 + word 4 a 2) * 256 ^ 4 + word 4 a 3 <
        ((word 4 orderBytes 0 * 256 ^ 4 + word 4 orderBytes 1) * 256 ^ 4 + word 4 orderBytes 2) * 256 ^ 4 + word 4 orderBytes 3) := by
    rw [Bool.eq_iff_iff]
    simp only [Bool.or_eq_true, decide_eq_true_eq, lex_lt (m _) (l _), lex_eq (m _) (l _)]
    omega
  have e1 : (decide (word 4 a 3 > word 4 orderBytes 3) &&
      !decide (((word 4 a 0 * 256 ^ 4 + word 4 a 1) * 256 ^ 4 + word 4 a 2) * 256 ^ 4 + word 4 a 3 <
        ((word 4 orderBytes 0 * 256 ^ 4 + word 4 orderBytes 1) * 256 ^ 4 + word 4 orderBytes 2) * 256 ^ 4 + word 4 orderBytes 3)) =
      decide (((word 4 orderBytes 0 * 256 ^ 4 + word 4 orderBytes 1) * 256 ^ 4 + word 4 orderBytes 2) * 256 ^ 4 +
        word 4 orderBytes 3 < ((word 4 a 0 * 256 ^ 4 + word 4 a 1) * 256 ^ 4 + word 4 a 2) * 256 ^ 4 + word 4 a 3) := by
    rw [Bool.eq_iff_iff]
    simp only [Bool.and_eq_true, Bool.not_eq_true', decide_eq_true_eq, decide_eq_false_iff_not, lex_lt (m _) (l _),
      lex_eq (m _) (l _), lex_lt (l _) (m _), lex_eq (l _) (m _)]
    omega
  simp only [e0, e1, step_no (l _) (m _), step_yes (l _) (m _), step_last (l _) (m _)]

theorem checkIsZero_eq (a : Bytes) (h : 32 ≤ a.length) :
    checkIsZero a = .ok (decide (beNat (a.take 32) = 0)) := by
  unfold checkIsZero
  rw [if_neg (by omega), value64 a h]
  refine congrArg Res.ok ?_
  rw [Bool.eq_iff_iff]
  simp only [Bool.and_eq_true, decide_eq_true_eq]
  omega

/-! ### The nonce -/

theorem fit_eq {n : Nat} {b : Bytes} (h : b.length = n) : fit n b = b := by
  unfold fit; rw [List.take_left' h]

theorem hmacInit_eq (E : Ec) (key : Bytes) :
    hmacInit E key = ((Spec.Rfc6979.start E.hmac key).1, (Spec.Rfc6979.start E.hmac key).2, 0) := by
  simp [hmacInit, Spec.Rfc6979.start]

theorem nonceFunction_eq (E : Ec) {key msg : Bytes} (hk : key.length = 32) (hm : msg.length = 32) (counter : Nat) :
    nonceFunction E msg key counter =
      if 2 ^ 32 ≤ (counter + 1) * 32 then .panic
      else .ok (List.replicate (counter + 1) (Spec.Rfc6979.candidate E.hmac (key ++ msg) 0)).flatten := by
  unfold nonceFunction
  rw [fit_eq hk, fit_eq hm]
  simp only [hmacInit_eq, hmacGenerate]
  split
  · rfl
  · refine congrArg Res.ok ?_
    rw [List.flatMap, List.map_const', List.length_range]
    rfl

theorem candidate_length (E : Ec) (bx : Bytes) (i : Nat) : (Spec.Rfc6979.candidate E.hmac bx i).length = 32 := E.hmac_size _ _

theorem attempt_eq (E : Ec) {key msg : Bytes} (hk : key.length = 32) (hm : msg.length = 32) {counter : Nat}
    (hc : (counter + 1) * 32 < 2 ^ 32) :
    attempt E key msg counter =
      if 1 ≤ beNat (Spec.Rfc6979.candidate E.hmac (key ++ msg) 0) ∧
          beNat (Spec.Rfc6979.candidate E.hmac (key ++ msg) 0) < Btc.curveOrder then
        .ok (signatureInner E key msg (List.replicate (counter + 1) (Spec.Rfc6979.candidate E.hmac (key ++ msg) 0)).flatten)
      else .ok none := by
  unfold attempt
  rw [nonceFunction_eq E hk hm, if_neg (by omega), Res.bind_ok]
  have ht : ((List.replicate (counter + 1) (Spec.Rfc6979.candidate E.hmac (key ++ msg) 0)).flatten).take 32 =
      Spec.Rfc6979.candidate E.hmac (key ++ msg) 0 := by
    rw [List.replicate_succ, List.flatten_cons, List.take_left' (candidate_length _ _ _)]
  have hl : 32 ≤ ((List.replicate (counter + 1) (Spec.Rfc6979.candidate E.hmac (key ++ msg) 0)).flatten).length := by
    rw [List.replicate_succ, List.flatten_cons, List.length_append, candidate_length]; omega
  rw [checkOverflow32_eq _ hl, Res.bind_ok, checkIsZero_eq _ hl, Res.bind_ok, ht]
  simp only [decide_eq_false_iff_not, not_le]
  by_cases h : 1 ≤ beNat (Spec.Rfc6979.candidate E.hmac (key ++ msg) 0) ∧
      beNat (Spec.Rfc6979.candidate E.hmac (key ++ msg) 0) < Btc.curveOrder
  · rw [if_pos h, if_pos ⟨h.2, by omega⟩]
  · rw [if_neg h, if_neg (by omega)]

theorem signLoop_panic (E : Ec) (key msg : Bytes) (h : ∀ c, (c + 1) * 32 < 2 ^ 32 → attempt E key msg c = .ok none) :
    ∀ c, signLoop E key msg c = .panic := by
  intro c
  induction hd : 2 ^ 32 - c using Nat.strong_induction_on generalizing c with
  | _ d ih =>
    rw [signLoop]
    split
    · rfl
    · rename_i hc
      rw [h c (by omega)]
      exact ih (2 ^ 32 - (c + 1)) (by omega) (c + 1) rfl

theorem signLoop_ok (E : Ec) (key msg sig : Bytes) :
    ∀ c, signLoop E key msg c = .ok sig → ∃ d, (d + 1) * 32 < 2 ^ 32 ∧ attempt E key msg d = .ok (some sig) := by
  intro c
  induction hd : 2 ^ 32 - c using Nat.strong_induction_on generalizing c with
  | _ d ih =>
    intro h
    rw [signLoop] at h
    split at h
    · cases h
    · rename_i hc
      split at h
      · cases h
      · cases h
      · rename_i s hs
        cases h
        exact ⟨c, by omega, hs⟩
      · exact ih (2 ^ 32 - (c + 1)) (by omega) (c + 1) rfl h

theorem ethSignature_eq (E : Ec) {key hash : Bytes} (hk : 32 ≤ key.length) (hh : hash.length = 32) :
    ethSignature E key hash =
      if 1 ≤ beNat (key.take 32) ∧ beNat (key.take 32) < Btc.curveOrder then signLoop E key hash 0 else .err := by
  unfold ethSignature
  rw [if_neg (by omega), checkOverflow64_eq _ hk, Res.bind_ok, checkIsZero_eq _ hk, Res.bind_ok]
  simp only [decide_eq_false_iff_not, not_le]
  by_cases h : 1 ≤ beNat (key.take 32) ∧ beNat (key.take 32) < Btc.curveOrder
  · rw [if_pos h, if_pos ⟨h.2, by omega⟩]
  · rw [if_neg h, if_neg (by omega)]

/-! ### `eosSignature` -/

theorem int2octets_eq (v r : Nat) : int2octets v r = beBytes r v := by
  unfold int2octets
  simp only
  have hv := OwKeychain.beNat_bigBytes v
  generalize OwKeychain.bigBytes v = out at *
  have hlt := beNat_lt out
  split
  · rename_i h
    apply beNat_inj
    · simp; omega
    · rw [Btc.beNat_zeros, beNat_beBytes, hv, Nat.mod_eq_of_lt]
      rw [← hv]
      exact lt_of_lt_of_le hlt (Nat.pow_le_pow_right (by norm_num) h.le)
  · split
    · rename_i h
      apply beNat_inj
      · simp; omega
      · have e : out = out.take (out.length - r) ++ out.drop (out.length - r) := (List.take_append_drop _ _).symm
        have hl : (out.drop (out.length - r)).length = r := by simp; omega
        have hlt2 := beNat_lt (out.drop (out.length - r))
        rw [beNat_beBytes, ← hv]
        conv_rhs => rw [e, beNat_append]
        rw [hl] at hlt2 ⊢
        rw [Nat.mul_comm, Nat.mul_add_mod, Nat.mod_eq_of_lt hlt2]
    · have h : out.length = r := by omega
      rw [← h, ← hv, beBytes_beNat]

theorem hashToInt_eq (h : Bytes) : hashToInt h = beNat (h.take 32) := by
  unfold hashToInt
  split
  · rfl
  · rw [List.take_of_length_le (by omega)]

theorem bits2octets_eq (d : Bytes) (r : Nat) : bits2octets d r = beBytes r (beNat (d.take 32) % Spec.Rfc6979.q) := by
  unfold bits2octets
  simp only [int2octets_eq, hashToInt_eq, q_eq]
  have h1 : beNat (d.take 32) < 256 ^ 32 :=
    lt_of_lt_of_le (beNat_lt _) (Nat.pow_le_pow_right (by norm_num) (by simp))
  have h2 : 256 ^ 32 < 2 * Btc.curveOrder := by decide +kernel
  generalize (256 : Nat) ^ 32 = B at *
  generalize beNat (d.take 32) = z at *
  generalize Btc.curveOrder = n at *
  by_cases h : z < n
  · rw [if_pos (by omega), Nat.mod_eq_of_lt h]
  · rw [if_neg (by omega), Nat.mod_eq_sub_mod (by omega), Nat.mod_eq_of_lt (by omega)]

theorem randomInit_eq (E : Ec) (sha : Bytes → Bytes) (key hash : Bytes) (i : Nat) :
    randomInit E sha key hash i =
      Spec.Rfc6979.start E.hmac (Spec.Rfc6979.seed (beNat key) (if i > 0 then sha (hash ++ List.replicate i 0) else hash)) := by
  simp [randomInit, Spec.Rfc6979.start, Spec.Rfc6979.seed, int2octets_eq, bits2octets_eq]

theorem randomState_eq (E : Ec) (bx : Bytes) : ∀ i,
    randomState E (Spec.Rfc6979.start E.hmac bx) i = Spec.Rfc6979.state E.hmac bx i
  | 0 => rfl
  | i + 1 => by
    rw [randomState, randomState_eq E bx i]
    rfl

theorem randomRound_eq (E : Ec) (bx : Bytes) (i : Nat) :
    (randomRound E (randomState E (Spec.Rfc6979.start E.hmac bx) i)).1 = beNat (Spec.Rfc6979.candidate E.hmac bx i) := by
  rw [randomState_eq]
  simp only [randomRound, hashToInt_eq, Spec.Rfc6979.candidate, Spec.Rfc6979.block]
  rw [List.take_of_length_le (by rw [E.hmac_size])]

theorem randomOk_iff (E : Ec) (bx : Bytes) (i : Nat) :
    randomOk E (Spec.Rfc6979.start E.hmac bx) i ↔ Spec.Rfc6979.InRange (beNat (Spec.Rfc6979.candidate E.hmac bx i)) := by
  unfold randomOk Spec.Rfc6979.InRange
  rw [randomRound_eq, q_eq]

theorem generateRandom_iff (E : Ec) (sha : Bytes → Bytes) (key hash : Bytes) (i : Nat) (b : Bytes) :
    generateRandom E sha key hash i = some b ↔
      ∃ k, Spec.Rfc6979.IsNonce E.hmac
        (Spec.Rfc6979.seed (beNat key) (if i > 0 then sha (hash ++ List.replicate i 0) else hash)) k ∧ b = OwKeychain.bigBytes k := by
  classical
  unfold generateRandom
  rw [randomInit_eq]
  generalize Spec.Rfc6979.seed (beNat key) (if i > 0 then sha (hash ++ List.replicate i 0) else hash) = bx
  unfold randomLoop
  constructor
  · intro h
    split at h
    · rename_i hex
      have h1 := Nat.find_spec hex
      have h2 := fun j (hj : j < Nat.find hex) => Nat.find_min hex hj
      rw [randomOk_iff] at h1
      refine ⟨_, ⟨Nat.find hex, rfl, h1, fun j hj => ?_⟩, ?_⟩
      · have := h2 j hj
        rwa [randomOk_iff] at this
      · rw [← randomRound_eq]; exact (Option.some.inj h).symm
    · cases h
  · rintro ⟨k, ⟨j, rfl, h1, h2⟩, rfl⟩
    have hex : ∃ i, randomOk E (Spec.Rfc6979.start E.hmac bx) i := ⟨j, (randomOk_iff E bx j).mpr h1⟩
    have hj : Nat.find hex = j := by
      rw [Nat.find_eq_iff]
      refine ⟨(randomOk_iff E bx j).mpr h1, fun m hm hok => h2 m hm ((randomOk_iff E bx m).mp hok)⟩
    rw [dif_pos hex]
    rw [hj, randomRound_eq]

end Verif.SigSet
