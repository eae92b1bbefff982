import Verif.Model.Bech32
import Verif.Lemmas.Hex
import Verif.Lemmas.PolyMod
import Verif.Lemmas.Base58

namespace Verif.Bech32
open Verif Verif.PolyMod
open Verif.Base58 (horner horner_append horner_eq horner_lt)

/-! ### shifting byte arrays -/

theorem shl_bit (x y : UInt8) :
    ((x <<< 1) ||| ((y >>> 7) &&& 1)).toNat = (2 * x.toNat) % 256 + y.toNat / 128 := by
  have h1 : ∀ y : UInt8, (y >>> 7) &&& 1 = if y.toNat / 128 = 0 then 0 else 1 := by
    apply Hex.u8_forall; decide +kernel
  have h2 : ∀ x : UInt8, ((x <<< 1) ||| 0).toNat = (2 * x.toNat) % 256 := by
    apply Hex.u8_forall; decide +kernel
  have h3 : ∀ x : UInt8, ((x <<< 1) ||| 1).toNat = (2 * x.toNat) % 256 + 1 := by
    apply Hex.u8_forall; decide +kernel
  have hy := y.toNat_lt
  rw [h1 y]
  split
  · rw [h2]; omega
  · rw [h3]; omega

theorem shl_last (x : UInt8) : (x <<< 1).toNat = (2 * x.toNat) % 256 := by
  revert x; apply Hex.u8_forall; decide +kernel

theorem mul_add_mod_mul {q M r n : Nat} (hr : r < M) : (q * M + r) % (n * M) = (q % n) * M + r := by
  rw [Nat.mul_comm n M, Nat.mod_mul]
  have h1 : (q * M + r) % M = r := by
    rw [Nat.mul_comm, Nat.mul_add_mod]; exact Nat.mod_eq_of_lt hr
  have h2 : (q * M + r) / M = q := by
    rw [Nat.mul_comm, Nat.mul_add_div (by omega), Nat.div_eq_of_lt hr]; rfl
  rw [h1, h2]; ring

@[simp] theorem byteShl1_length : ∀ b : Bytes, (byteShl1 b).length = b.length
  | [] => rfl
  | [_] => rfl
  | _ :: y :: r => by simp [byteShl1, byteShl1_length (y :: r)]

theorem byteShl1_val : ∀ b : Bytes, beNat (byteShl1 b) = (2 * beNat b) % 256 ^ b.length
  | [] => by simp [byteShl1]
  | [x] => by
    simp only [byteShl1, beNat, List.reverse_singleton, leNat, shl_last, List.length_singleton]
    simp
  | x :: y :: r => by
    have ih := byteShl1_val (y :: r)
    simp only [byteShl1]
    rw [beNat_cons, ih, shl_bit, byteShl1_length, beNat_cons x]
    have hlt := beNat_lt (y :: r)
    have hx := x.toNat_lt
    have hy := y.toNat_lt
    have hlen : (256 : Nat) ^ (x :: y :: r).length = 256 * 256 ^ (y :: r).length := by
      rw [← pow_succ']; rfl
    have hT := beNat_cons y r
    have hr := beNat_lt r
    have hM2 : (256 : Nat) ^ (y :: r).length = 256 * 256 ^ r.length := by rw [← pow_succ']; rfl
    rw [hlen]
    generalize beNat (y :: r) = T at *
    generalize beNat r = ρ at *
    rw [hM2] at hlt ⊢
    generalize 256 ^ r.length = K at *
    have hcase : 2 * T = (y.toNat / 128) * (256 * K) + (2 * T) % (256 * K) := by
      have : 2 * T / (256 * K) = y.toNat / 128 := by
        by_cases h : y.toNat < 128
        · have h1 : (y.toNat + 1) * K ≤ 128 * K := Nat.mul_le_mul_right _ (by omega)
          rw [Nat.add_mul] at h1
          rw [Nat.div_eq_of_lt (by omega)]; omega
        · have h1 : 128 * K ≤ y.toNat * K := Nat.mul_le_mul_right _ (by omega)
          have h2 : 2 * T / (256 * K) = 1 := Nat.div_eq_of_lt_le (by omega) (by omega)
          omega
      have h3 := Nat.div_add_mod (2 * T) (256 * K)
      rw [this] at h3
      rw [Nat.mul_comm (y.toNat / 128)]
      exact h3.symm
    have hrl : (2 * T) % (256 * K) < 256 * K := Nat.mod_lt _ (by omega)
    have e : 2 * (x.toNat * (256 * K) + T) = (2 * x.toNat + y.toNat / 128) * (256 * K) + (2 * T) % (256 * K) := by
      rw [Nat.mul_add, hcase, Nat.add_mul (2 * x.toNat)]
      simp only [Nat.add_mod, Nat.mul_mod_left, Nat.mod_mod]
      ring_nf
      simp
    rw [e, mul_add_mod_mul hrl]
    congr 2
    omega

@[simp] theorem byteShl5_length (b : Bytes) : (byteShl5 b).length = b.length := by simp [byteShl5]

theorem byteShl5_val (b : Bytes) : beNat (byteShl5 b) = (32 * beNat b) % 256 ^ b.length := by
  simp only [byteShl5, byteShl1_val, byteShl1_length]
  have h : ∀ a m : Nat, 2 * (a % m) % m = (2 * a) % m := fun a m => by rw [Nat.mul_mod, Nat.mod_mod, ← Nat.mul_mod]
  simp only [h]
  congr 1; ring

/-- The top five bits of a byte array. -/
theorem top5 (x : UInt8) (r : Bytes) :
    (((x :: r).headD 0 >>> 3) &&& 0x1f).toNat = beNat (x :: r) / (8 * 256 ^ r.length) := by
  have h : ∀ x : UInt8, ((x >>> 3) &&& 0x1f).toNat = x.toNat / 8 := by
    apply Hex.u8_forall; decide +kernel
  have hr := beNat_lt r
  rw [List.headD_cons, h, beNat_cons, Nat.mul_comm 8, ← Nat.div_div_eq_div_mul, Nat.mul_comm x.toNat,
    Nat.mul_add_div (by omega), Nat.div_eq_of_lt hr, Nat.add_zero]

theorem takeSymbols_length (n : Nat) : ∀ b, (takeSymbols n b).length = n := by
  induction n with
  | zero => intro b; rfl
  | succ n ih => intro b; simp [takeSymbols, ih]

theorem takeSymbols_lt (n : Nat) : ∀ b, ∀ v ∈ takeSymbols n b, v < 32 := by
  induction n with
  | zero => intro b v hv; simp [takeSymbols] at hv
  | succ n ih =>
    intro b v hv
    simp only [takeSymbols, List.mem_cons] at hv
    rcases hv with rfl | hv
    · generalize b.headD 0 = x
      revert x; apply Hex.u8_forall; decide +kernel
    · exact ih _ v hv

/-- Invariant of the symbol extraction: what has been emitted and what is left make up the shifted number. -/
theorem takeSymbols_val : ∀ (n : Nat) (b : Bytes) (h : Nat), b ≠ [] →
    horner 32 h (takeSymbols n b) * 256 ^ b.length + (32 ^ n * beNat b) % 256 ^ b.length
      = (h * 256 ^ b.length + beNat b) * 32 ^ n
  | 0, b, h, _ => by
    simp [takeSymbols, horner, Nat.mod_eq_of_lt (beNat_lt b)]
  | n + 1, [], h, hb => absurd rfl hb
  | n + 1, x :: r, h, _ => by
    have hne : byteShl5 (x :: r) ≠ [] := by
      intro e; have := congrArg List.length e; simp at this
    have ih := takeSymbols_val n (byteShl5 (x :: r)) (32 * h + (((x :: r).headD 0 >>> 3) &&& 0x1f).toNat) hne
    simp only [takeSymbols, horner]
    rw [byteShl5_length, byteShl5_val] at ih
    have hm : (32 ^ n * (32 * beNat (x :: r) % 256 ^ (x :: r).length)) % 256 ^ (x :: r).length
        = (32 ^ (n + 1) * beNat (x :: r)) % 256 ^ (x :: r).length := by
      rw [Nat.mul_mod, Nat.mod_mod, ← Nat.mul_mod, pow_succ]; congr 1; ring
    rw [hm] at ih
    rw [ih, top5]
    have hT := beNat_lt (x :: r)
    have hM : (256 : Nat) ^ (x :: r).length = 32 * (8 * 256 ^ r.length) := by
      rw [← Nat.mul_assoc]; exact pow_succ' 256 r.length
    have hKp : 0 < 8 * 256 ^ r.length := by positivity
    generalize beNat (x :: r) = T at *
    rw [hM]
    generalize 8 * 256 ^ r.length = K at *
    have hdm := Nat.div_add_mod T K
    have hmod : 32 * T % (32 * K) = 32 * (T % K) := Nat.mul_mod_mul_left 32 T K
    rw [hmod, pow_succ]
    have e : (32 * h + T / K) * (32 * K) + 32 * (T % K) = 32 * (h * (32 * K)) + 32 * (K * (T / K) + T % K) := by ring
    rw [e, hdm]; ring

theorem extendPayload_length (p : Bytes) : (extendPayload p).length = (p.length * 8 + 4) / 5 :=
  takeSymbols_length _ _

theorem extendPayload_lt (p : Bytes) : ∀ v ∈ extendPayload p, v < 32 := takeSymbols_lt _ _

/-- The symbols are the base-32 numeral of the payload shifted left by the padding bits. -/
theorem extendPayload_val (p : Bytes) (hp : p ≠ []) :
    horner 32 0 (extendPayload p) = beNat p * 2 ^ (5 * ((p.length * 8 + 4) / 5) - 8 * p.length) := by
  have h := takeSymbols_val ((p.length * 8 + 4) / 5) p 0 hp
  simp only [Nat.zero_mul, Nat.zero_add] at h
  have hpow : (32 : Nat) ^ ((p.length * 8 + 4) / 5)
      = 256 ^ p.length * 2 ^ (5 * ((p.length * 8 + 4) / 5) - 8 * p.length) := by
    have h1 : (32 : Nat) = 2 ^ 5 := rfl
    have h2 : (256 : Nat) = 2 ^ 8 := rfl
    rw [h1, h2, ← pow_mul, ← pow_mul, ← pow_add]
    congr 1
    omega
  rw [hpow] at h
  have hz : (256 ^ p.length * 2 ^ (5 * ((p.length * 8 + 4) / 5) - 8 * p.length) * beNat p) % 256 ^ p.length = 0 := by
    rw [Nat.mul_assoc]; exact Nat.mul_mod_right _ _
  rw [hz, Nat.add_zero] at h
  have hpos : 0 < (256 : Nat) ^ p.length := by positivity
  apply Nat.eq_of_mul_eq_mul_right hpos
  unfold extendPayload
  rw [h]; ring

/-! ### packing symbols into bytes -/

theorem orLast_ok (b : Bytes) (hb : b ≠ []) (e : Nat) (he : e < 32) (hz : beNat b % 32 = 0) :
    ∃ r, orLast b e = .ok r ∧ r.length = b.length ∧ beNat r = beNat b + e := by
  obtain ⟨a, x, rfl⟩ : ∃ a x, b = a ++ [x] := ⟨b.dropLast, b.getLast hb, (List.dropLast_append_getLast hb).symm⟩
  have hor : ∀ (x : UInt8) (e : Fin 32), x.toNat % 32 = 0 → (x ||| UInt8.ofNat e.val).toNat = x.toNat + e.val := by
    apply Hex.u8_forall; decide +kernel
  have hbx : beNat (a ++ [x]) = beNat a * 256 + x.toNat := by rw [beNat_append]; simp [beNat, leNat]
  refine ⟨a ++ [x ||| UInt8.ofNat e], ?_, by simp, ?_⟩
  · have hne : a ++ [x] ≠ [] := by simp
    unfold orLast
    split
    · rename_i h; exact absurd h hne
    · simp
  · have := hor x ⟨e, he⟩ (by rw [hbx] at hz; omega)
    rw [beNat_append, hbx]
    simp only [List.length_singleton, pow_one]
    simp only [beNat, List.reverse_singleton, leNat] at this ⊢
    omega

theorem untake_val : ∀ (ext : List Nat) (ret : Bytes), ext ≠ [] → ret ≠ [] → (∀ v ∈ ext, v < 32) →
    beNat ret % 32 = 0 →
    ∃ r, untake ext ret = .ok r ∧ r.length = ret.length ∧
      beNat r % 256 ^ ret.length = (horner 32 (beNat ret / 32) ext) % 256 ^ ret.length
  | [], _, h, _, _, _ => absurd rfl h
  | [e], ret, _, hr, hv, hz => by
    obtain ⟨r, h1, h2, h3⟩ := orLast_ok ret hr e (hv e (by simp)) hz
    refine ⟨r, h1, h2, ?_⟩
    rw [h3]; simp only [horner]; congr 1; omega
  | e :: f :: es, ret, _, hr, hv, hz => by
    obtain ⟨r, h1, h2, h3⟩ := orLast_ok ret hr e (hv e (by simp)) hz
    have hlen : 1 ≤ ret.length := by
      cases ret with
      | nil => exact absurd rfl hr
      | cons => simp
    have hne : byteShl5 r ≠ [] := by
      intro h; have := congrArg List.length h; simp at this
      rw [this] at h2; simp at h2; exact hr (List.eq_nil_of_length_eq_zero h2.symm)
    have h256 : (256 : Nat) ^ ret.length = 32 * (8 * 256 ^ (ret.length - 1)) := by
      have : ret.length = ret.length - 1 + 1 := by omega
      conv_lhs => rw [this, pow_succ]
      ring
    have hz' : beNat (byteShl5 r) % 32 = 0 := by
      rw [byteShl5_val, h2, h256, Nat.mod_mul_right_mod]; omega
    obtain ⟨r', h4, h5, h6⟩ := untake_val (f :: es) (byteShl5 r) (by simp) hne
      (fun v hv' => hv v (by simp [List.mem_cons] at hv' ⊢; tauto)) hz'
    refine ⟨r', ?_, ?_, ?_⟩
    · simp only [untake, h1]; exact h4
    · rw [h5]; simp [h2]
    · rw [byteShl5_length, h2] at h6
      rw [h6]
      have hdiv : beNat (byteShl5 r) / 32 = (beNat ret + e) % (8 * 256 ^ (ret.length - 1)) := by
        rw [byteShl5_val, h2, h3, h256, Nat.mul_mod_mul_left, Nat.mul_div_cancel_left _ (by omega)]
      rw [hdiv]
      have hh : 32 * (beNat ret / 32) + e = beNat ret + e := by omega
      simp only [horner]
      rw [hh]
      -- only the residue of the start value matters
      rw [horner_eq, horner_eq, h256]
      have key : ∀ (A B K L : Nat), (32 * (A % K) * L + B) % (32 * K) = (32 * A * L + B) % (32 * K) := by
        intro A B K L
        have : 32 * A * L = 32 * (A % K) * L + (32 * K) * (A / K * L) := by
          conv_lhs => rw [← Nat.mod_add_div A K]
          ring
        rw [this, Nat.add_right_comm, Nat.add_mul_mod_self_left]
      have hp : ∀ A : Nat, A * 32 ^ (f :: es).length = 32 * A * 32 ^ es.length := by
        intro A; rw [List.length_cons, pow_succ]; ring
      have e1 : ∀ A : Nat, (32 * A + f) * 32 ^ es.length + Nat.ofDigits 32 es.reverse
          = 32 * A * 32 ^ es.length + (f * 32 ^ es.length + Nat.ofDigits 32 es.reverse) := by intro A; ring
      rw [e1, e1]
      exact key _ _ _ _

theorem unextendPayload_val (ext : List Nat) (h2 : 2 ≤ ext.length) (hv : ∀ v ∈ ext, v < 32) :
    unextendPayload ext =
      .ok (beBytes (ext.length * 5 / 8) (horner 32 0 ext)) := by
  have hz : ∀ n, beNat (List.replicate n 0) = 0 := by
    intro n
    induction n with
    | zero => rfl
    | succ n ih => rw [List.replicate_succ, beNat_cons, ih]; simp
  obtain ⟨r, h3, h4, h5⟩ := untake_val ext (List.replicate (ext.length * 5 / 8) 0)
    (by rintro rfl; simp at h2) (by
      intro h; have := congrArg List.length h; simp at this; omega) hv (by rw [hz])
  unfold unextendPayload
  rw [h3]
  simp only [List.length_replicate, hz, Nat.zero_div] at h4 h5
  congr 1
  rw [← beBytes_beNat r, h4]
  apply beNat_inj (by simp)
  rw [beNat_beBytes, beNat_beBytes, h5]

/-! ### characters -/

theorem toChars_ok (alphabet : Bytes) : ∀ (vs : List Nat), (∀ v ∈ vs, v < alphabet.length) →
    ∃ cs, toChars alphabet vs = .ok cs ∧ cs.map some = vs.map (fun v => alphabet[v]?)
  | [], _ => ⟨[], rfl, rfl⟩
  | v :: vs, h => by
    obtain ⟨cs, h1, h2⟩ := toChars_ok alphabet vs (fun x hx => h x (by simp [hx]))
    have hv := h v (by simp)
    exact ⟨alphabet[v] :: cs, by simp [toChars, index_ok hv, h1], by simp [h2, hv]⟩

/-- Properties of the standard symbol characters. -/
theorem stdChar (v : Fin 32) : ∃ c, stdAlphabet[v.val]? = some c ∧ rev c = some v.val ∧
    ((0x61 ≤ c ∧ c ≤ 0x7a) ∨ ((0x30 ≤ c ∧ c ≤ 0x39) ∧ c ≠ 0x31)) := by
  have h : ∀ v : Fin 32, stdAlphabet[v.val]? = some (stdAlphabet.getD v.val 0) ∧
      rev (stdAlphabet.getD v.val 0) = some v.val ∧
      ((0x61 ≤ stdAlphabet.getD v.val 0 ∧ stdAlphabet.getD v.val 0 ≤ 0x7a) ∨
        ((0x30 ≤ stdAlphabet.getD v.val 0 ∧ stdAlphabet.getD v.val 0 ≤ 0x39) ∧
          stdAlphabet.getD v.val 0 ≠ 0x31)) := by decide +kernel
  exact ⟨_, h v⟩

theorem stdChars (vs : List Nat) (hv : ∀ v ∈ vs, v < 32) : ∃ cs, toChars stdAlphabet vs = .ok cs ∧
    revAll cs = some vs ∧ (∀ c ∈ cs, (0x61 ≤ c ∧ c ≤ 0x7a) ∨ ((0x30 ≤ c ∧ c ≤ 0x39) ∧ c ≠ 0x31)) := by
  induction vs with
  | nil => exact ⟨[], rfl, rfl, by simp⟩
  | cons v vs ih =>
    obtain ⟨cs, h1, h2, h3⟩ := ih (fun x hx => hv x (by simp [hx]))
    obtain ⟨c, g1, g2, g3⟩ := stdChar ⟨v, hv v (by simp)⟩
    refine ⟨c :: cs, ?_, ?_, ?_⟩
    · simp only at g1; simp [toChars, index, g1, h1]
    · simp only at g2; simp [revAll, g2, h2]
    · intro x hx
      rcases List.mem_cons.mp hx with rfl | hx
      · exact g3
      · exact h3 x hx

/-- Scanning letters and digits other than the separator never fails and keeps the prefix size. -/
theorem scan_plain (sep : UInt8) : ∀ (cs : Bytes) (i : Nat) (s : Scan),
    (∀ c ∈ cs, (0x61 ≤ c ∧ c ≤ 0x7a) ∨ ((0x30 ≤ c ∧ c ≤ 0x39) ∧ c ≠ sep)) →
    ∃ s', scan sep i s cs = some s' ∧ s'.upper = s.upper ∧ s'.prefixSize = s.prefixSize
  | [], i, s, _ => ⟨s, rfl, rfl, rfl⟩
  | c :: cs, i, s, h => by
    have hc := h c (by simp)
    have hcs : ∀ x ∈ cs, (0x61 ≤ x ∧ x ≤ 0x7a) ∨ ((0x30 ≤ x ∧ x ≤ 0x39) ∧ x ≠ sep) :=
      fun x hx => h x (by simp [hx])
    by_cases h1 : 0x61 ≤ c ∧ c ≤ 0x7a
    · obtain ⟨s', e1, e2, e3⟩ := scan_plain sep cs (i + 1) { s with lower := true } hcs
      exact ⟨s', by simp only [scan, if_pos h1, e1], e2, e3⟩
    · have h2 : (0x30 ≤ c ∧ c ≤ 0x39) ∧ c ≠ sep := by tauto
      have h3 : ¬ (0x41 ≤ c ∧ c ≤ 0x5a) := by
        rintro ⟨h4, _⟩
        have h5 := UInt8.le_iff_toNat_le.mp h4
        have h6 := UInt8.le_iff_toNat_le.mp h2.1.2
        have h7 : (0x41 : UInt8).toNat = 0x41 := rfl
        have h8 : (0x39 : UInt8).toNat = 0x39 := rfl
        omega
      obtain ⟨s', e1, e2, e3⟩ := scan_plain sep cs (i + 1) { s with hasNumber := true } hcs
      exact ⟨s', by simp only [scan, if_neg h1, if_neg h3, if_pos h2, e1], e2, e3⟩

/-- Scanning a lower-case prefix. -/
theorem scan_lower (sep : UInt8) : ∀ (cs rest : Bytes) (i : Nat) (s : Scan),
    (∀ c ∈ cs, 0x61 ≤ c ∧ c ≤ 0x7a) →
    ∃ l, scan sep i s (cs ++ rest) = scan sep (i + cs.length) { s with lower := l } rest
  | [], rest, i, s, _ => ⟨s.lower, rfl⟩
  | c :: cs, rest, i, s, h => by
    have hc := h c (by simp)
    obtain ⟨l, e⟩ := scan_lower sep cs rest (i + 1) { s with lower := true } (fun x hx => h x (by simp [hx]))
    refine ⟨l, ?_⟩
    simp only [List.cons_append, scan, if_pos hc, e, List.length_cons]
    congr 1; omega

/-- A human-readable prefix: one or more lower-case letters. -/
def IsHrp (hrp : Bytes) : Prop := hrp ≠ [] ∧ ∀ c ∈ hrp, 0x61 ≤ c ∧ c ≤ 0x7a

theorem sep_not_lower {c sep : UInt8} (hs : sep = 0x31 ∨ sep = 0x3a) (h : 0x61 ≤ c ∧ c ≤ 0x7a) : c ≠ sep := by
  rintro rfl
  have := UInt8.le_iff_toNat_le.mp h.1
  rcases hs with rfl | rfl <;> revert this <;> decide

theorem parse_encode (sep : UInt8) (hs : sep = 0x31 ∨ sep = 0x3a) (hrp : Bytes) (hh : IsHrp hrp)
    (cs : Bytes) (vs : List Nat) (hrev : revAll cs = some vs)
    (hc : ∀ c ∈ cs, (0x61 ≤ c ∧ c ≤ 0x7a) ∨ ((0x30 ≤ c ∧ c ≤ 0x39) ∧ c ≠ sep)) :
    parse sep (hrp ++ [sep] ++ cs) = .ok (hrp, vs) := by
  obtain ⟨hne, hlow⟩ := hh
  have hl : 1 ≤ hrp.length := by
    cases hrp with
    | nil => exact absurd rfl hne
    | cons => simp
  obtain ⟨l, h1⟩ := scan_lower sep hrp ([sep] ++ cs) 0 ⟨false, false, false, 0⟩ hlow
  have hsep1 : ¬ (0x61 ≤ sep ∧ sep ≤ 0x7a) := by rcases hs with rfl | rfl <;> decide
  have hsep2 : ¬ (0x41 ≤ sep ∧ sep ≤ 0x5a) := by rcases hs with rfl | rfl <;> decide
  obtain ⟨s', e1, e2, e3⟩ := scan_plain sep cs (0 + hrp.length + 1) ⟨l, false, false, 0 + hrp.length⟩ hc
  have h2 : scan sep 0 ⟨false, false, false, 0⟩ (hrp ++ [sep] ++ cs) = some s' := by
    rw [List.append_assoc, h1]
    simp only [List.cons_append, List.nil_append, scan, if_neg hsep1, if_neg hsep2]
    rw [if_neg (by simp), if_pos trivial, if_neg (by simp; omega), e1]
  have htw : (hrp ++ [sep] ++ cs).takeWhile (· ≠ sep) = hrp := by
    rw [List.append_assoc, List.takeWhile_append_of_pos]
    · simp
    · intro c hcc; simpa using sep_not_lower hs (hlow c hcc)
  have hdrop : (hrp ++ [sep] ++ cs).drop (s'.prefixSize + 1) = cs := by
    rw [e3]; simp
  unfold parse
  rw [h2]
  simp only
  rw [if_neg (by simp [e2]), if_neg (by rw [e3]; simp), hdrop, hrev, htw]

theorem expandPrefix_lt (p : Bytes) : ∀ v ∈ expandPrefix p, v < 32 := by
  intro v hv
  simp only [expandPrefix, List.mem_append, List.mem_map, List.mem_singleton] at hv
  rcases hv with (⟨c, _, rfl⟩ | rfl) | ⟨c, _, rfl⟩
  · have := c.toNat_lt; rw [Nat.shiftRight_eq_div_pow]; omega
  · omega
  · exact Nat.lt_of_le_of_lt Nat.and_le_right (by omega)

theorem verify_calc (p : Bytes) (data : List Nat) (hd : ∀ v ∈ data, v < 32) :
    verifyChecksum p (data ++ calcChecksum p data) = true := by
  have h := run_checksum fit_bech32 (expandPrefix p ++ data) (by
    intro v hv
    rcases List.mem_append.mp hv with h | h
    · exact expandPrefix_lt p v h
    · exact hd v h) 6 1 rfl (by decide)
  unfold verifyChecksum polyMod
  unfold calcChecksum polyMod
  rw [← List.append_assoc, h]
  rfl

end Verif.Bech32
