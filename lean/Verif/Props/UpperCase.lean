import Verif.Lemmas.Bech32Lang

/-! The all-capital form of bech32 and cashaddr texts (C56), exactly. -/

namespace Verif.PolyMod
open Verif

/-- The state after `n` symbols 1, from the zero state. -/
def ones (n : Nat) : Nat := run bech32Code 0 (List.replicate n 1)

theorem ones_succ (n : Nat) : ones (n + 1) = step bech32Code (ones n) 1 := by
  unfold ones
  rw [List.replicate_succ', run_append]
  rfl

/-- The first `n` states after `c` are not zero. -/
def nonzero : Nat → Nat → Bool
  | 0, _ => true
  | n + 1, c => c != 0 && nonzero n (step bech32Code c 1)

theorem nonzero_spec : ∀ (n k : Nat), nonzero n (ones k) = true → ∀ j < n, ones (k + j) ≠ 0
  | 0, _, _, j, hj => by omega
  | n + 1, k, h, j, hj => by
    simp only [nonzero, Bool.and_eq_true, bne_iff_ne] at h
    cases j with
    | zero => exact h.1
    | succ j =>
      have := nonzero_spec n (k + 1) (by rw [ones_succ]; exact h.2) j (by omega)
      rwa [show k + (j + 1) = k + 1 + j by omega]

theorem ones_first : ∀ j, 0 < j → j < 1023 → ones j ≠ 0 := by
  intro j h0 h1
  have := nonzero_spec 1022 1 (by decide +kernel) (j - 1) (by omega)
  rwa [show 1 + (j - 1) = j by omega] at this

/-- The state is zero after `n` more symbols, and not before. -/
def returns : Nat → Nat → Bool
  | 0, c => c == 0
  | n + 1, c => c != 0 && returns n (step bech32Code c 1)

theorem returns_spec : ∀ (n k : Nat), returns n (ones k) = true → ones (k + n) = 0
  | 0, _, h => by simpa [returns] using h
  | n + 1, k, h => by
    simp only [returns, Bool.and_eq_true] at h
    have := returns_spec n (k + 1) (by rw [ones_succ]; exact h.2)
    rwa [show k + (n + 1) = k + 1 + n by omega]

theorem ones_period : ones 1023 = 0 := returns_spec 1022 1 (by decide +kernel)

theorem ones_add (n : Nat) : ones (1023 + n) = ones n := by
  have h := ones_period
  unfold ones at h ⊢
  rw [List.replicate_add, run_append, h]

theorem ones_zero_iff (n : Nat) : ones n = 0 ↔ 1023 ∣ n := by
  induction n using Nat.strong_induction_on with
  | _ n ih =>
    by_cases h : n < 1023
    · constructor
      · intro h0
        rcases Nat.eq_zero_or_pos n with rfl | hp
        · exact Nat.dvd_zero _
        · exact absurd h0 (ones_first n hp h)
      · intro hd
        have : n = 0 := Nat.eq_zero_of_dvd_of_lt hd h
        subst this
        rfl
    · obtain ⟨m, rfl⟩ := Nat.exists_eq_add_of_le (Nat.le_of_not_lt h)
      rw [ones_add, ih m (by omega)]
      exact (Nat.dvd_add_right (Nat.dvd_refl 1023)).symm

end Verif.PolyMod

namespace Verif
open Verif.PolyMod Verif.Spec.Bech32Lang
open Verif.Bech32 hiding verify_calc

/-- The capital letter belonging to a small one, other characters unchanged (ASCII). -/
def capital (c : UInt8) : UInt8 := if 97 ≤ c.toNat ∧ c.toNat ≤ 122 then c - 32 else c

namespace UpperCase

theorem symbol_capital (c : UInt8) (v : Nat) (hc : ¬ Capital c) : Symbol (capital c) v ↔ Symbol c v := by
  have key : ∀ c : UInt8, ¬ Capital c → ∀ v : Fin 32, Symbol (capital c) v.val ↔ Symbol c v.val := by
    apply Hex.u8_forall; decide +kernel
  constructor
  · intro h; exact (key c hc ⟨v, symbol_lt h⟩).mp h
  · intro h; exact (key c hc ⟨v, symbol_lt h⟩).mpr h

theorem capital_small : ∀ c : UInt8, ¬ Small (capital c) := by
  apply Hex.u8_forall; decide +kernel

theorem symbols_capital : ∀ (d : Bytes) (vs : List Nat), (∀ c ∈ d, ¬ Capital c) →
    (List.Forall₂ Symbol (d.map capital) vs ↔ List.Forall₂ Symbol d vs)
  | [], vs, _ => by simp
  | c :: d, vs, h => by
    cases vs with
    | nil => simp
    | cons v vs =>
      simp only [List.map_cons, List.forall₂_cons]
      rw [symbol_capital c v (h c (by simp)), symbols_capital d vs (fun x hx => h x (by simp [hx]))]

/-- What the scanner makes of the capital form. -/
theorem parse_capital (sep : UInt8) (hs : sep = 0x31 ∨ sep = 0x3a) (p d : Bytes) (vs : List Nat) (hne : p ≠ []) (hp : ∀ c ∈ p, Small c)
    (hd : ∀ c ∈ d, ¬ Capital c) (hv : List.Forall₂ Symbol d vs) :
    parse sep ((p ++ sep :: d).map capital) = .ok (p.map capital, vs) := by
  have hcap : capital sep = sep := by rcases hs with rfl | rfl <;> decide
  refine (parse_iff sep hs _ _ _).mpr ⟨d.map capital, Or.inl ⟨by simpa using hne, ?_, by simp [hcap]⟩, Or.inl ?_, (symbols_capital d vs hd).mpr hv⟩
  · intro c hc
    obtain ⟨x, hx, rfl⟩ := List.mem_map.mp hc
    have key : ∀ c : UInt8, Small c → Capital (capital c) := by apply Hex.u8_forall; decide +kernel
    exact Or.inr (key x (hp x hx))
  · intro c hc
    obtain ⟨x, -, rfl⟩ := List.mem_map.mp hc
    exact capital_small x

theorem parse_small (sep : UInt8) (hs : sep = 0x31 ∨ sep = 0x3a) (p d : Bytes) (vs : List Nat) (hne : p ≠ []) (hp : ∀ c ∈ p, Small c)
    (hd : ∀ c ∈ d, ¬ Capital c) (hv : List.Forall₂ Symbol d vs) : parse sep (p ++ sep :: d) = .ok (p, vs) := by
  refine (parse_iff sep hs _ _ _).mpr ⟨d, Or.inl ⟨hne, fun c hc => Or.inl (hp c hc), rfl⟩, Or.inr ?_, hv⟩
  intro c hc
  rcases List.mem_append.mp hc with hc | hc
  · have key : ∀ c : UInt8, Small c → ¬ Capital c := by apply Hex.u8_forall; decide +kernel
    exact key c (hp c hc)
  · rcases List.mem_cons.mp hc with rfl | hc
    · rcases hs with rfl | rfl <;> decide
    · exact hd c hc

theorem expand_diff (p : Bytes) (hp : ∀ c ∈ p, Small c) :
    List.zipWith (· ^^^ ·) (expandPrefix p) (expandPrefix (p.map capital)) = List.replicate p.length 1 ++ List.replicate (p.length + 1) 0 := by
  have h1 : ∀ c : UInt8, Small c → c.toNat >>> 5 ^^^ (capital c).toNat >>> 5 = 1 := by apply Hex.u8_forall; decide +kernel
  have h2 : ∀ c : UInt8, Small c → (c.toNat &&& 0x1f) ^^^ ((capital c).toNat &&& 0x1f) = 0 := by apply Hex.u8_forall; decide +kernel
  have z : ∀ (f g : UInt8 → Nat) (x : Nat), (∀ c, Small c → f c ^^^ g (capital c) = x) → ∀ p : Bytes, (∀ c ∈ p, Small c) →
      List.zipWith (· ^^^ ·) (p.map f) ((p.map capital).map g) = List.replicate p.length x := by
    intro f g x hx p hp
    induction p with
    | nil => rfl
    | cons c p ih =>
      simp only [List.map_cons, List.zipWith_cons_cons, List.length_cons, List.replicate_succ]
      rw [hx c (hp c (by simp)), ih (fun y hy => hp y (by simp [hy]))]
  unfold expandPrefix
  rw [List.append_assoc, List.append_assoc, List.zipWith_append (by simp), z _ (fun c => c.toNat >>> 5) 1 h1 p hp]
  congr 1
  show List.zipWith _ (0 :: _) (0 :: _) = _
  rw [List.zipWith_cons_cons, List.replicate_succ]
  exact congrArg (List.cons 0) (z (fun c => c.toNat &&& 0x1f) (fun c => c.toNat &&& 0x1f) 0 h2 p hp)

/-- The checksums of both forms can only agree if the length of the prefix is a multiple of 1023. -/
theorem verify_capital (p : Bytes) (hp : ∀ c ∈ p, Small c) (vs : List Nat) (h : verifyChecksum p vs = true) :
    verifyChecksum (p.map capital) vs = true ↔ 1023 ∣ p.length := by
  unfold verifyChecksum Bech32.polyMod at h ⊢
  rw [beq_iff_eq] at h ⊢
  have hlen : (expandPrefix p).length = (expandPrefix (p.map capital)).length := by simp [expandPrefix]
  have hx := run_xor bech32Code (expandPrefix p ++ vs) (expandPrefix (p.map capital) ++ vs) 1 1 (by simp [hlen])
  rw [List.zipWith_append hlen, zipWith_xor_self, expand_diff p hp, xor_eq_zero' h, Nat.xor_self, List.append_assoc, ← List.replicate_add,
    run_append] at hx
  have hb : run bech32Code 0 (List.replicate p.length 1) < 2 ^ (bech32Code.shift + 5) :=
    run_lt fit_bech32 _ _ (by decide) (by intro v hv; rw [List.eq_of_mem_replicate hv]; decide)
  have hz : run bech32Code 0 (List.replicate p.length 1) = 0 ↔ 1023 ∣ p.length := ones_zero_iff p.length
  rw [← hz]
  constructor
  · intro h2
    rw [xor_eq_zero' h2, Nat.xor_self] at hx
    exact run_zeros_inj good_bech32 fit_bech32 _ _ hb hx
  · intro h0
    have hzero : ∀ n, run bech32Code 0 (List.replicate n 0) = 0 := by
      intro n
      induction n with
      | zero => rfl
      | succ n ih => exact ih
    rw [h0, hzero] at hx
    rw [Nat.xor_comm]
    exact hx.symm

end UpperCase

/-- C56 is false of every bech32 text: if a text in small letters with a prefix `p` decodes, its all-capital form is refused, unless the length
of the prefix is a multiple of 1023 (when it decodes to the same). -/
theorem C56_bech32_capitals_violated (p d b : Bytes) (hne : p ≠ []) (hp : ∀ c ∈ p, Small c) (hd : ∀ c ∈ d, ¬ Capital c)
    (h : Bech32.decode (p ++ 0x31 :: d) = .ok b) :
    Bech32.decode ((p ++ 0x31 :: d).map capital) = if 1023 ∣ p.length then .ok b else .err := by
  obtain ⟨q, vs, hq, hv⟩ := Bech32.decode_ok h
  obtain ⟨d', h1, -, h3⟩ := (parse_iff 0x31 (Or.inl rfl) _ _ _).mp hq
  have hsym : List.Forall₂ Symbol d vs := by
    rcases h1 with ⟨a, b', c⟩ | ⟨⟨a, -⟩, -⟩
    · have : ∀ c : UInt8, Small c ∨ Capital c → c ≠ 0x31 := by apply Hex.u8_forall; decide +kernel
      have e : p = q ∧ d = d' := by
        have k1 : (p ++ 0x31 :: d).takeWhile (· ≠ 0x31) = p := by
          rw [List.takeWhile_append_of_pos (by intro x hx; simpa using this x (Or.inl (hp x hx)))]; simp
        have k2 : (q ++ 0x31 :: d').takeWhile (· ≠ 0x31) = q := by
          rw [List.takeWhile_append_of_pos (by intro x hx; simpa using this x (b' x hx))]; simp
        have : p = q := by rw [← k1, c, k2]
        subst this
        exact ⟨rfl, by simpa using c⟩
      rw [e.2]; exact h3
    · simp at a
  have hps := UpperCase.parse_small 0x31 (Or.inl rfl) p d vs hne hp hd hsym
  have hpc := UpperCase.parse_capital 0x31 (Or.inl rfl) p d vs hne hp hd hsym
  rw [hps] at hq
  simp only [Res.ok.injEq, Prod.mk.injEq, and_true] at hq
  subst hq
  have key := UpperCase.verify_capital p hp vs hv
  unfold Bech32.decode at h ⊢
  rw [hps, Res.bind_ok] at h
  rw [hpc, Res.bind_ok]
  simp only [hv] at h
  split_ifs with hdiv
  · simp only [key.mpr hdiv]; exact h
  · have : verifyChecksum (p.map capital) vs = false := by
      rw [← Bool.not_eq_true]; exact fun hh => hdiv (key.mp hh)
    simp [this]

-- the first address of BIP 173
example : (∀ c ∈ asc "bc", Small c) ∧ (∀ c ∈ asc "qw508d6qejxtdg4y5r3zarvary0c5xw7kv8f3t4", ¬ Capital c) ∧
    (Bech32.decode (asc "bc" ++ 0x31 :: asc "qw508d6qejxtdg4y5r3zarvary0c5xw7kv8f3t4")).isOk = true ∧ ¬ 1023 ∣ (asc "bc").length := by decide +kernel

/-- C56 is false of every cashaddr text: in capital letters the last eight symbols, which are the checksum, can be anything. -/
theorem C56_cashaddr_capitals_violated (d cs cs' : Bytes) (vs ws ws' : List Nat) (hd : ∀ c ∈ d ++ cs ++ cs', ¬ Capital c)
    (h1 : List.Forall₂ Symbol d vs) (h2 : List.Forall₂ Symbol cs ws) (h3 : List.Forall₂ Symbol cs' ws') (hl : cs.length = 8) (hl' : cs'.length = 8) :
    CashAddr.decode ((asc "bitcoincash" ++ 0x3a :: (d ++ cs)).map capital) = CashAddr.decode ((asc "bitcoincash" ++ 0x3a :: (d ++ cs')).map capital) := by
  have hp : ∀ c ∈ asc "bitcoincash", Small c := by decide +kernel
  have hne : asc "bitcoincash" ≠ [] := by decide +kernel
  have key : ∀ e us, (∀ c ∈ d ++ e, ¬ Capital c) → List.Forall₂ Symbol e us → e.length = 8 →
      CashAddr.decode ((asc "bitcoincash" ++ 0x3a :: (d ++ e)).map capital) = CashAddr.unextendPayload vs := by
    intro e us hde hu hle
    unfold CashAddr.decode
    rw [UpperCase.parse_capital 0x3a (Or.inr rfl) _ (d ++ e) (vs ++ us) hne hp hde (List.rel_append h1 hu), Res.bind_ok]
    have hcap : (asc "bitcoincash").map capital ≠ asc "bitcoincash" := by decide +kernel
    have hul : us.length = 8 := by rw [← hu.length_eq, hle]
    simp [hcap, hul]
  rw [key cs ws (fun c hc => hd c (by simp at hc ⊢; tauto)) h2 hl, key cs' ws' (fun c hc => hd c (by simp at hc ⊢; tauto)) h3 hl']

/-- The part of C56 that holds for cashaddr: a text in small letters that decodes, decodes alike in capital letters. -/
theorem C56_cashaddr_same_partial (p d b : Bytes) (hne : p ≠ []) (hp : ∀ c ∈ p, Small c) (hd : ∀ c ∈ d, ¬ Capital c)
    (h : CashAddr.decode (p ++ 0x3a :: d) = .ok b) : CashAddr.decode ((p ++ 0x3a :: d).map capital) = .ok b := by
  obtain ⟨q, vs, hq, -⟩ := CashAddr.decode_ok h
  obtain ⟨d', h1, -, h3⟩ := (parse_iff 0x3a (Or.inr rfl) _ _ _).mp hq
  have hsym : List.Forall₂ Symbol d vs := by
    rcases h1 with ⟨a, b', c⟩ | ⟨⟨a, -⟩, -⟩
    · have : ∀ c : UInt8, Small c ∨ Capital c → c ≠ 0x3a := by apply Hex.u8_forall; decide +kernel
      have e : p = q ∧ d = d' := by
        have k1 : (p ++ 0x3a :: d).takeWhile (· ≠ 0x3a) = p := by
          rw [List.takeWhile_append_of_pos (by intro x hx; simpa using this x (Or.inl (hp x hx)))]; simp
        have k2 : (q ++ 0x3a :: d').takeWhile (· ≠ 0x3a) = q := by
          rw [List.takeWhile_append_of_pos (by intro x hx; simpa using this x (b' x hx))]; simp
        have : p = q := by rw [← k1, c, k2]
        subst this
        exact ⟨rfl, by simpa using c⟩
      rw [e.2]; exact h3
    · simp at a
  have hps := UpperCase.parse_small 0x3a (Or.inr rfl) p d vs hne hp hd hsym
  have hpc := UpperCase.parse_capital 0x3a (Or.inr rfl) p d vs hne hp hd hsym
  have hcap : p.map capital ≠ asc "bitcoincash" := by
    intro hc
    have : ∀ c ∈ p.map capital, Small c := by rw [hc]; decide +kernel
    obtain ⟨x, p', rfl⟩ := List.exists_cons_of_ne_nil hne
    exact UpperCase.capital_small x (this _ (by simp))
  unfold CashAddr.decode at h ⊢
  rw [hps, Res.bind_ok] at h
  rw [hpc, Res.bind_ok]
  simp only [hcap, false_and, if_false]
  simp only at h
  split_ifs at h with _ h8
  rw [if_neg h8]
  exact h

example : (∀ c ∈ asc "bitcoincash", Small c) ∧ (∀ c ∈ asc "qpm2qsznhks23z7629mms6s4cwef74vcwvy22gdx6a", ¬ Capital c) ∧
    (CashAddr.decode (asc "bitcoincash" ++ 0x3a :: asc "qpm2qsznhks23z7629mms6s4cwef74vcwvy22gdx6a")).isOk = true := by decide +kernel

end Verif
