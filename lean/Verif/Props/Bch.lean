import Verif.Lemmas.Bech32
import Verif.Lemmas.CashAddr
import Verif.Lemmas.Bech32m
import Verif.Spec.Bch

/-! Property C64: the checksums are the published codes. -/

namespace Verif
open Verif.Spec Verif.PolyMod

namespace Bch
open Verif.Spec.Bch

theorem foldl_pack (vs : List Nat) (c : Nat) : vs.foldl (fun c v => c * 32 + v) c = c * 32 ^ vs.length + pack vs := by
  induction vs generalizing c with
  | nil => simp [pack]
  | cons v vs ih =>
    unfold pack
    rw [List.foldl_cons, List.foldl_cons, ih, ih (0 * 32 + v), List.length_cons, pow_succ]
    ring

theorem pack_cons (v : Nat) (vs : List Nat) : pack (v :: vs) = v * 32 ^ vs.length + pack vs := by
  unfold pack
  rw [List.foldl_cons, foldl_pack]
  simp [pack]

theorem pack_snoc (vs : List Nat) (v : Nat) : pack (vs ++ [v]) = pack vs * 32 + v := by
  simp [pack]

theorem pack_lt' (vs : List Nat) (h : ∀ v ∈ vs, v < 32) : pack vs < 32 ^ vs.length := by
  have := pack_lt vs 0 0 (by simp) h
  simpa [pack, pow_mul] using this

theorem xor_lt32 {a b : Nat} (ha : a < 32) (hb : b < 32) : a ^^^ b < 32 := Nat.xor_lt_two_pow (n := 5) ha hb

theorem pack_xor : ∀ (n : Nat) (a b : List Nat), a.length = n → b.length = n → (∀ v ∈ a, v < 32) → (∀ v ∈ b, v < 32) →
    pack (List.zipWith (· ^^^ ·) a b) = pack a ^^^ pack b
  | 0, a, b, ha, hb, _, _ => by
    simp at ha hb; subst ha; subst hb; rfl
  | n + 1, a, b, ha, hb, h1, h2 => by
    obtain ⟨x, a', rfl⟩ := List.exists_cons_of_ne_nil (l := a) (by rintro rfl; simp at ha)
    obtain ⟨y, b', rfl⟩ := List.exists_cons_of_ne_nil (l := b) (by rintro rfl; simp at hb)
    have la : a'.length = n := by simpa using ha
    have lb : b'.length = n := by simpa using hb
    have ih := pack_xor n a' b' la lb (fun v hv => h1 v (by simp [hv])) (fun v hv => h2 v (by simp [hv]))
    rw [List.zipWith_cons_cons, pack_cons, pack_cons, pack_cons, ih]
    have pa := pack_lt' a' (fun v hv => h1 v (by simp [hv]))
    have pb := pack_lt' b' (fun v hv => h2 v (by simp [hv]))
    rw [la] at pa ⊢
    rw [lb] at pb ⊢
    rw [List.length_zipWith, la, lb, Nat.min_self]
    have e : (32 : Nat) ^ n = 2 ^ (5 * n) := by rw [pow_mul]; norm_num
    rw [e] at pa pb ⊢
    generalize pack a' = p at *
    generalize pack b' = q at *
    -- compare bit by bit
    apply Nat.eq_of_testBit_eq
    intro i
    have hpq : p ^^^ q < 2 ^ (5 * n) := Nat.xor_lt_two_pow pa pb
    rw [Nat.mul_comm x, Nat.mul_comm y, Nat.mul_comm (x ^^^ y), Nat.testBit_xor,
      Nat.testBit_two_pow_mul_add _ hpq, Nat.testBit_two_pow_mul_add _ pa, Nat.testBit_two_pow_mul_add _ pb]
    split <;> simp [Nat.testBit_xor]

/-- What has to be checked of the constants (a finite check). -/
def Matches (k : Code) (g : List Nat) : Prop :=
  k.shift + 5 = 5 * g.length ∧ (∀ top < 32, addGens top 0 k.gens 0 = pack (g.map (gmul top))) ∧
    (∀ top < 32, ∀ y ∈ g, gmul top y < 32)

theorem matches_bech32 : Matches bech32Code bech32Gen := by
  unfold Matches; decide +kernel

theorem matches_cash : Matches cashCode cashGen := by
  unfold Matches; decide +kernel

theorem step_eq {k : Code} {g : List Nat} (hm : Matches k g) (r : List Nat) (v : Nat) (hr : r.length = g.length) (h : ∀ x ∈ r, x < 32)
    (hv : v < 32) : step k (pack r) v = pack (divStep g r v) ∧ (divStep g r v).length = g.length ∧ ∀ x ∈ divStep g r v, x < 32 := by
  obtain ⟨h1, h2, h3⟩ := hm
  obtain ⟨top, rest, rfl⟩ := List.exists_cons_of_ne_nil (l := r) (by
    rintro rfl
    simp at hr
    rw [← hr] at h1; simp at h1)
  have ht := h top (by simp)
  have hrest : ∀ x ∈ rest, x < 32 := fun x hx => h x (by simp [hx])
  have hlen : rest.length + 1 = g.length := by simpa using hr
  have hs : k.shift = 5 * rest.length := by omega
  have e : (32 : Nat) ^ rest.length = 2 ^ k.shift := by rw [hs, pow_mul]; norm_num
  have hp := pack_lt' rest hrest
  rw [e] at hp
  have hall : ∀ x ∈ rest ++ [v], x < 32 := by
    intro x hx
    rcases List.mem_append.mp hx with hx | hx
    · exact hrest x hx
    · simp at hx; subst hx; exact hv
  have hg : ∀ x ∈ g.map (gmul top), x < 32 := by
    intro x hx
    obtain ⟨y, hy, rfl⟩ := List.mem_map.mp hx
    exact h3 top ht y hy
  have hz : divStep g (top :: rest) v = List.zipWith (· ^^^ ·) (rest ++ [v]) (g.map (gmul top)) := by
    rw [List.zipWith_map_right]; rfl
  refine ⟨?_, by simp [divStep]; omega, ?_⟩
  · rw [hz, pack_xor g.length _ _ (by simp; omega) (by simp) hall hg, pack_snoc, ← h2 top ht]
    unfold step
    rw [pack_cons, e]
    have e1 : (top * 2 ^ k.shift + pack rest) >>> k.shift = top := by
      rw [Nat.shiftRight_eq_div_pow, Nat.mul_comm, Nat.mul_add_div (by positivity), Nat.div_eq_of_lt hp]; simp
    have e2 : (top * 2 ^ k.shift + pack rest) &&& (2 ^ k.shift - 1) = pack rest := by
      rw [Nat.and_two_pow_sub_one_eq_mod, Nat.mul_comm, Nat.mul_add_mod, Nat.mod_eq_of_lt hp]
    rw [e1, e2, Nat.shiftLeft_eq, shl5_xor _ _ hv]
    rw [addGens_split, Nat.xor_comm]
  · rw [hz]
    intro x hx
    rw [List.mem_iff_getElem] at hx
    obtain ⟨i, hi, rfl⟩ := hx
    rw [List.getElem_zipWith]
    exact xor_lt32 (hall _ (List.getElem_mem _)) (hg _ (List.getElem_mem _))

theorem run_eq {k : Code} {g : List Nat} (hm : Matches k g) : ∀ (vs r : List Nat), r.length = g.length → (∀ x ∈ r, x < 32) →
    (∀ v ∈ vs, v < 32) → run k (pack r) vs = pack (vs.foldl (divStep g) r) ∧ (vs.foldl (divStep g) r).length = g.length ∧
      ∀ x ∈ vs.foldl (divStep g) r, x < 32
  | [], r, hr, h, _ => ⟨rfl, hr, h⟩
  | v :: vs, r, hr, h, hv => by
    obtain ⟨h1, h2, h3⟩ := step_eq hm r v hr h (hv v (by simp))
    have := run_eq hm vs (divStep g r v) h2 h3 (fun x hx => hv x (by simp [hx]))
    simpa [run, h1] using this

theorem run_remainder {k : Code} {g : List Nat} (hm : Matches k g) (vs : List Nat) (hv : ∀ v ∈ vs, v < 32) :
    run k 1 vs = pack (remainder g (1 :: vs)) ∧ (remainder g (1 :: vs)).length = g.length ∧ ∀ x ∈ remainder g (1 :: vs), x < 32 := by
  have h0 : pack (List.replicate g.length 0) = 0 := by
    have : ∀ n, pack (List.replicate n 0) = 0 := by
      intro n
      induction n with
      | zero => rfl
      | succ n ih => rw [List.replicate_succ, pack_cons, ih]; simp
    exact this _
  have h := run_eq hm (1 :: vs) (List.replicate g.length 0) (by simp) (by
    intro x hx; rw [List.eq_of_mem_replicate hx]; omega) (by
    intro x hx
    rcases List.mem_cons.mp hx with rfl | hx
    · omega
    · exact hv x hx)
  rw [h0] at h
  obtain ⟨h1, h2, h3⟩ := h
  refine ⟨?_, h2, h3⟩
  rw [show remainder g (1 :: vs) = (1 :: vs).foldl (divStep g) (List.replicate g.length 0) from rfl, ← h1]
  have hz : step k 0 1 = 1 := by
    have hz' : ∀ (gs : List Nat) (i c : Nat), addGens 0 i gs c = c := by
      intro gs
      induction gs with
      | nil => intros; rfl
      | cons g gs ih => intro i c; simp [addGens, ih]
    unfold step
    simp [hz']
  simp [run, hz]

theorem pack_inj : ∀ (a b : List Nat), a.length = b.length → (∀ v ∈ a, v < 32) → (∀ v ∈ b, v < 32) → pack a = pack b → a = b
  | [], [], _, _, _, _ => rfl
  | [], _ :: _, h, _, _, _ => by simp at h
  | _ :: _, [], h, _, _, _ => by simp at h
  | x :: a, y :: b, hl, ha, hb, h => by
    have hl' : a.length = b.length := by simpa using hl
    rw [pack_cons, pack_cons, hl'] at h
    have pa := pack_lt' a (fun v hv => ha v (by simp [hv]))
    have pb := pack_lt' b (fun v hv => hb v (by simp [hv]))
    rw [hl'] at pa
    have hx : x = y := by
      have h1 := congrArg (· / 32 ^ b.length) h
      rwa [Nat.mul_comm x, Nat.mul_comm y, Nat.mul_add_div (by positivity), Nat.mul_add_div (by positivity), Nat.div_eq_of_lt pa,
        Nat.div_eq_of_lt pb, Nat.add_zero, Nat.add_zero] at h1
    subst hx
    rw [pack_inj a b hl' (fun v hv => ha v (by simp [hv])) (fun v hv => hb v (by simp [hv])) (by omega)]

theorem expand_eq (p : Bytes) : Bech32.expandPrefix p = hrpSymbols p := by
  unfold Bech32.expandPrefix hrpSymbols
  have h1 : ∀ c : UInt8, c.toNat >>> 5 = c.toNat / 32 := fun c => by rw [Nat.shiftRight_eq_div_pow]
  have h2 : ∀ c : UInt8, c.toNat &&& 0x1f = c.toNat % 32 := fun c => Nat.and_two_pow_sub_one_eq_mod _ 5
  simp only [h1, h2, List.append_assoc, List.singleton_append]

theorem hrpSymbols_lt (p : Bytes) : ∀ v ∈ hrpSymbols p, v < 32 := by
  intro v hv
  simp only [hrpSymbols, List.mem_append, List.mem_cons, List.mem_map] at hv
  rcases hv with ⟨c, _, rfl⟩ | rfl | ⟨c, _, rfl⟩
  · have := c.toNat_lt; omega
  · omega
  · omega

end Bch

open Verif.Spec.Bch Verif.Bch

/-- C64, bech32: for every prefix and data part, the checksum is accepted exactly if the polynomial of BIP 173 (coefficients 1, the
expanded prefix, the data) leaves the remainder 1 on division by the generator of BIP 173. -/
theorem C64_bech32_is_bip173 (hrp : Bytes) (data : List Nat) (hd : ∀ v ∈ data, v < 32) :
    Bech32.verifyChecksum hrp data = true ↔ remainder bech32Gen (1 :: (hrpSymbols hrp ++ data)) = [0, 0, 0, 0, 0, 1] := by
  have hall : ∀ v ∈ hrpSymbols hrp ++ data, v < 32 := by
    intro v hv
    rcases List.mem_append.mp hv with h | h
    · exact hrpSymbols_lt hrp v h
    · exact hd v h
  obtain ⟨h1, h2, h3⟩ := run_remainder matches_bech32 _ hall
  unfold Bech32.verifyChecksum Bech32.polyMod
  rw [expand_eq, h1, beq_iff_eq]
  constructor
  · intro h
    exact pack_inj _ _ h2 h3 (by decide) (xor_eq_zero' h)
  · intro h
    rw [h]; decide

/-- C64, bech32m: the variant is recognised by the remainder of BIP 350. -/
theorem C64_bech32m_is_bip350 (hrp : Bytes) (data : List Nat) (hd : ∀ v ∈ data, v < 32) :
    (Bech32m.verifyChecksum hrp data = some .bech32 ↔ remainder bech32Gen (1 :: (hrpSymbols hrp ++ data)) = [0, 0, 0, 0, 0, 1]) ∧
    (Bech32m.verifyChecksum hrp data = some .bech32m ↔ remainder bech32Gen (1 :: (hrpSymbols hrp ++ data)) = bech32mTarget) := by
  have hall : ∀ v ∈ hrpSymbols hrp ++ data, v < 32 := by
    intro v hv
    rcases List.mem_append.mp hv with h | h
    · exact hrpSymbols_lt hrp v h
    · exact hd v h
  obtain ⟨h1, h2, h3⟩ := run_remainder matches_bech32 _ hall
  have he : Bech32m.hrpExpand hrp = hrpSymbols hrp := expand_eq hrp
  unfold Bech32m.verifyChecksum Bech32m.polymod
  simp only [he, h1]
  generalize remainder bech32Gen (1 :: (hrpSymbols hrp ++ data)) = r at *
  have k1 : pack r = 1 ↔ r = [0, 0, 0, 0, 0, 1] :=
    ⟨fun h => pack_inj _ _ h2 h3 (by decide) (by rw [h]; decide), fun h => by rw [h]; decide⟩
  have k2 : pack r = Bech32m.bech32mConst ↔ r = bech32mTarget :=
    ⟨fun h => pack_inj _ _ h2 h3 (by decide) (by rw [h]; decide), fun h => by rw [h]; decide⟩
  have n1 : Bech32m.bech32mConst ≠ 1 := by decide
  rw [← k1, ← k2]
  generalize pack r = p
  by_cases c1 : p = 1
  · subst c1
    simp [n1.symm]
  · by_cases c2 : p = Bech32m.bech32mConst
    · subst c2
      simp [n1]
    · simp [c1, c2]

/-- C64, cashaddr: the code of the cashaddr specification with the prefix "bitcoincash". -/
theorem C64_cashaddr_is_spec (data : List Nat) (hd : ∀ v ∈ data, v < 32) :
    CashAddr.verifyChecksum CashAddr.bitcoincashExpandPrefix data = true ↔
      remainder cashGen (1 :: (cashPrefixSymbols (asc "bitcoincash") ++ data)) = [0, 0, 0, 0, 0, 0, 0, 1] := by
  have he : CashAddr.bitcoincashExpandPrefix = cashPrefixSymbols (asc "bitcoincash") := by decide
  have hall : ∀ v ∈ cashPrefixSymbols (asc "bitcoincash") ++ data, v < 32 := by
    intro v hv
    rcases List.mem_append.mp hv with h | h
    · exact (by decide : ∀ v ∈ cashPrefixSymbols (asc "bitcoincash"), v < 32) v h
    · exact hd v h
  obtain ⟨h1, h2, h3⟩ := run_remainder matches_cash _ hall
  unfold CashAddr.verifyChecksum CashAddr.polyMod
  rw [he, h1, beq_iff_eq]
  constructor
  · intro h
    exact pack_inj _ _ h2 h3 (by decide) (xor_eq_zero' h)
  · intro h
    rw [h]; decide

example : remainder bech32Gen (1 :: (hrpSymbols (asc "bc") ++ [0, 14, 20, 15, 7, 13, 26, 0, 25, 18, 6, 11, 13, 8, 21, 4, 20, 3, 17, 2, 29,
    3, 12, 29, 3, 4, 15, 24, 20, 6, 14, 30, 22, 12, 7, 9, 17, 11, 21])) = [0, 0, 0, 0, 0, 1] := by decide +kernel

end Verif
