import Verif.Model.PolyMod
import Verif.Lemmas.Base

namespace Verif.PolyMod
open Verif

/-! ### linearity over xor -/

theorem xor4 (a b c d : Nat) : a ^^^ b ^^^ (c ^^^ d) = a ^^^ c ^^^ (b ^^^ d) := by
  rw [Nat.xor_assoc, ← Nat.xor_assoc b c d, Nat.xor_comm b c, Nat.xor_assoc c b d, ← Nat.xor_assoc]

theorem addGens_xor (gs : List Nat) : ∀ (i c0 d0 c d : Nat),
    addGens (c0 ^^^ d0) i gs (c ^^^ d) = addGens c0 i gs c ^^^ addGens d0 i gs d := by
  induction gs with
  | nil => intros; rfl
  | cons g gs ih =>
    intro i c0 d0 c d
    simp only [addGens, Nat.testBit_xor]
    rw [← ih]
    congr 1
    cases c0.testBit i <;> cases d0.testBit i <;> simp
    · rw [Nat.xor_assoc]
    · rw [Nat.xor_assoc, Nat.xor_comm d g, ← Nat.xor_assoc]
    · rw [xor4]; simp

theorem step_xor (k : Code) (c d u v : Nat) :
    step k (c ^^^ d) (u ^^^ v) = step k c u ^^^ step k d v := by
  unfold step
  rw [← addGens_xor, Nat.shiftRight_xor_distrib]
  congr 1
  rw [Nat.and_xor_distrib_right, Nat.shiftLeft_xor_distrib, xor4]

/-- Running on the pointwise xor of two sequences. -/
theorem run_xor (k : Code) : ∀ (us vs : List Nat) (c d : Nat), us.length = vs.length →
    run k (c ^^^ d) (List.zipWith (· ^^^ ·) us vs) = run k c us ^^^ run k d vs
  | [], [], _, _, _ => rfl
  | u :: us, v :: vs, c, d, h => by
    simp only [List.zipWith_cons_cons, run, List.foldl_cons]
    rw [step_xor]
    exact run_xor k us vs _ _ (by simpa using h)
  | [], _ :: _, _, _, h => by simp at h
  | _ :: _, [], _, _, h => by simp at h

theorem run_append (k : Code) (c : Nat) (a b : List Nat) : run k c (a ++ b) = run k (run k c a) b := by
  simp [run]

theorem zipWith_xor_zero : ∀ us : List Nat, List.zipWith (· ^^^ ·) us (List.replicate us.length 0) = us
  | [] => rfl
  | u :: us => by simp [List.replicate_succ, zipWith_xor_zero us]

theorem zipWith_zero_xor : ∀ us : List Nat, List.zipWith (· ^^^ ·) (List.replicate us.length 0) us = us
  | [] => rfl
  | u :: us => by simp [List.replicate_succ, zipWith_zero_xor us]

theorem zipWith_xor_self : ∀ us : List Nat, List.zipWith (· ^^^ ·) us us = List.replicate us.length 0
  | [] => rfl
  | u :: us => by
    rw [List.zipWith_cons_cons, zipWith_xor_self us, Nat.xor_self]; rfl

theorem run_split (k : Code) (c : Nat) (us : List Nat) :
    run k c us = run k c (List.replicate us.length 0) ^^^ run k 0 us := by
  have := run_xor k (List.replicate us.length 0) us c 0 (by simp)
  rw [zipWith_zero_xor] at this
  simpa using this

/-- Difference of two runs over sequences of equal length. -/
theorem run_diff (k : Code) (c d : Nat) (us : List Nat) :
    run k c us ^^^ run k d us = run k (c ^^^ d) (List.replicate us.length 0) := by
  rw [← run_xor k us us c d rfl, zipWith_xor_self]

/-! ### injectivity -/

theorem xor_eq_zero' {a b : Nat} (h : a ^^^ b = 0) : a = b := by
  have : a ^^^ b ^^^ b = 0 ^^^ b := by rw [h]
  simpa [Nat.xor_assoc] using this

/-- The generator sum `c0 ↦ Σ gens` has trivial kernel already on its low five bits. -/
def GoodGens (k : Code) : Prop :=
  ∀ c0 < 32, (addGens c0 0 k.gens 0) % 32 = 0 → c0 = 0

theorem good_bech32 : GoodGens bech32Code := by
  have h : ∀ c0 : Fin 32, (addGens c0.val 0 bech32Code.gens 0) % 32 = 0 → c0.val = 0 := by decide +kernel
  intro c0 hc hz
  exact h ⟨c0, hc⟩ hz

theorem good_cash : GoodGens cashCode := by
  have h : ∀ c0 : Fin 32, (addGens c0.val 0 cashCode.gens 0) % 32 = 0 → c0.val = 0 := by decide +kernel
  intro c0 hc hz
  exact h ⟨c0, hc⟩ hz

theorem addGens_split (c0 c : Nat) (gs : List Nat) (i : Nat) :
    addGens c0 i gs c = addGens c0 i gs 0 ^^^ c := by
  have h := addGens_xor gs i c0 0 0 c
  have hz : ∀ (gs : List Nat) (i c : Nat), addGens 0 i gs c = c := by
    intro gs
    induction gs with
    | nil => intros; rfl
    | cons g gs ih => intro i c; simp [addGens, ih]
  simpa [hz] using h

theorem xor_mod32 (a b : Nat) : (a ^^^ b) % 32 = (a % 32) ^^^ (b % 32) := by
  have := Nat.xor_mod_two_pow (a := a) (b := b) (n := 5)
  simpa using this

theorem step_zero_inj {k : Code} (hg : GoodGens k) {c : Nat} (hc : c < 2 ^ (k.shift + 5))
    (h : step k c 0 = 0) : c = 0 := by
  unfold step at h
  rw [addGens_split] at h
  have hc0 : c >>> k.shift < 32 := by
    rw [Nat.shiftRight_eq_div_pow]
    apply Nat.div_lt_of_lt_mul
    rw [Nat.mul_comm, Nat.mul_comm 32]
    rw [pow_add] at hc
    omega
  have hlow : ((c &&& (2 ^ k.shift - 1)) <<< 5 ^^^ 0) % 32 = 0 := by
    simp [Nat.shiftLeft_eq]
  have h1 : (addGens (c >>> k.shift) 0 k.gens 0) % 32 = 0 := by
    have h2 := congrArg (· % 32) h
    simp only [xor_mod32, hlow] at h2
    simpa using h2
  have hz := hg _ hc0 h1
  rw [hz] at h
  rw [← addGens_split] at h
  have hz' : ∀ (gs : List Nat) (i c : Nat), addGens 0 i gs c = c := by
    intro gs
    induction gs with
    | nil => intros; rfl
    | cons g gs ih => intro i c; simp [addGens, ih]
  rw [hz'] at h
  simp only [Nat.xor_zero] at h
  rw [Nat.and_two_pow_sub_one_eq_mod, Nat.shiftLeft_eq] at h
  have h3 : c % 2 ^ k.shift = 0 := by omega
  rw [Nat.shiftRight_eq_div_pow] at hz
  have := Nat.mod_add_div c (2 ^ k.shift)
  rw [h3, hz] at this
  omega

/-- All generators fit in the code word. -/
def GensFit (k : Code) : Prop := ∀ g ∈ k.gens, g < 2 ^ (k.shift + 5)

theorem fit_bech32 : GensFit bech32Code := by unfold GensFit; decide
theorem fit_cash : GensFit cashCode := by unfold GensFit; decide

theorem addGens_lt {n : Nat} : ∀ (gs : List Nat) (i c0 c : Nat), (∀ g ∈ gs, g < 2 ^ n) → c < 2 ^ n →
    addGens c0 i gs c < 2 ^ n
  | [], _, _, _, _, h => h
  | g :: gs, i, c0, c, hg, h => by
    apply addGens_lt gs
    · intro x hx; exact hg x (by simp [hx])
    · split
      · exact Nat.xor_lt_two_pow h (hg g (by simp))
      · exact h

theorem step_lt {k : Code} (hf : GensFit k) (c v : Nat) (hv : v < 32) : step k c v < 2 ^ (k.shift + 5) := by
  apply addGens_lt _ _ _ _ hf
  apply Nat.xor_lt_two_pow
  · rw [Nat.and_two_pow_sub_one_eq_mod, Nat.shiftLeft_eq, pow_add]
    apply Nat.mul_lt_mul_of_pos_right (Nat.mod_lt _ (Nat.two_pow_pos _)) (by omega)
  · calc v < 2 ^ 5 := hv
      _ ≤ 2 ^ (k.shift + 5) := Nat.pow_le_pow_right (by omega) (by omega)

theorem run_lt {k : Code} (hf : GensFit k) : ∀ (vs : List Nat) (c : Nat), c < 2 ^ (k.shift + 5) →
    (∀ v ∈ vs, v < 32) → run k c vs < 2 ^ (k.shift + 5)
  | [], c, h, _ => h
  | v :: vs, c, _, hv => by
    have := run_lt hf vs (step k c v) (step_lt hf c v (hv v (by simp))) (fun x hx => hv x (by simp [hx]))
    simpa [run] using this

theorem run_zeros_inj {k : Code} (hg : GoodGens k) (hf : GensFit k) : ∀ (n c : Nat), c < 2 ^ (k.shift + 5) →
    run k c (List.replicate n 0) = 0 → c = 0
  | 0, c, _, h => h
  | n + 1, c, hc, h => by
    have h' : run k (step k c 0) (List.replicate n 0) = 0 := by
      simpa [List.replicate_succ, run] using h
    exact step_zero_inj hg hc (run_zeros_inj hg hf n _ (step_lt hf c 0 (by omega)) h')

/-- Changing one symbol changes the checksum, at any length. -/
theorem run_single {k : Code} (hg : GoodGens k) (hf : GensFit k) (c : Nat) (p q : List Nat) (s s' : Nat)
    (hs : s < 32) (hs' : s' < 32) (h : run k c (p ++ s :: q) = run k c (p ++ s' :: q)) : s = s' := by
  rw [run_append, run_append] at h
  generalize run k c p = e at h
  have h2 : run k (step k e s) q = run k (step k e s') q := by simpa [run] using h
  have h3 : run k (step k e s ^^^ step k e s') (List.replicate q.length 0) = 0 := by
    rw [← run_diff, h2, Nat.xor_self]
  have h4 := run_zeros_inj hg hf _ _ (Nat.xor_lt_two_pow (step_lt hf e s hs) (step_lt hf e s' hs')) h3
  rw [← step_xor] at h4
  have h5 : step k (e ^^^ e) (s ^^^ s') = s ^^^ s' := by
    have hz' : ∀ (gs : List Nat) (i c : Nat), addGens 0 i gs c = c := by
      intro gs
      induction gs with
      | nil => intros; rfl
      | cons g gs ih => intro i c; simp [addGens, ih]
    simp [step, hz']
  rw [h5] at h4
  exact xor_eq_zero' h4

/-! ### the checksum symbols -/

theorem symbolsOf_lt (n m : Nat) : ∀ v ∈ symbolsOf n m, v < 32 := by
  intro v hv
  obtain ⟨i, _, rfl⟩ := List.mem_map.mp hv
  exact Nat.lt_of_le_of_lt Nat.and_le_right (by omega)

@[simp] theorem symbolsOf_length (n m : Nat) : (symbolsOf n m).length = n := by simp [symbolsOf]

/-- Value of the symbols, most significant first. -/
def pack (vs : List Nat) : Nat := vs.foldl (fun c v => c * 32 + v) 0

theorem pack_lt : ∀ (vs : List Nat) (c j : Nat), c < 2 ^ (5 * j) → (∀ v ∈ vs, v < 32) →
    vs.foldl (fun c v => c * 32 + v) c < 2 ^ (5 * (j + vs.length))
  | [], c, j, h, _ => h
  | v :: vs, c, j, h, hv => by
    have h1 := hv v (by simp)
    have := pack_lt vs (c * 32 + v) (j + 1) (by
      have : 2 ^ (5 * (j + 1)) = 2 ^ (5 * j) * 32 := by rw [Nat.mul_add, pow_add]; rfl
      omega) (fun x hx => hv x (by simp [hx]))
    simp only [List.foldl_cons, List.length_cons]
    have e : j + (vs.length + 1) = j + 1 + vs.length := by omega
    rw [e]; exact this

theorem shl5_xor (c v : Nat) (hv : v < 32) : c * 2 ^ 5 ^^^ v = c * 32 + v := by
  have h1 : (c * 2 ^ 5 ^^^ v) % 32 = v := by
    rw [xor_mod32]
    simp [Nat.mod_eq_of_lt hv]
  have h2 : (c * 2 ^ 5 ^^^ v) / 32 = c := by
    have := Nat.xor_div_two_pow (a := c * 2 ^ 5) (b := v) (n := 5)
    have h3 : v / 2 ^ 5 = 0 := Nat.div_eq_of_lt hv
    rw [h3, Nat.mul_div_cancel _ (by omega), Nat.xor_zero] at this
    exact this
  omega

/-- While the state has room, feeding symbols only packs them. -/
theorem run_pack (k : Code) : ∀ (vs : List Nat) (c j : Nat), c < 2 ^ (5 * j) → (∀ v ∈ vs, v < 32) →
    5 * (j + vs.length) ≤ k.shift + 5 → run k c vs = vs.foldl (fun c v => c * 32 + v) c
  | [], c, j, _, _, _ => rfl
  | v :: vs, c, j, h, hv, hr => by
    have h1 := hv v (by simp)
    have hj : 5 * j ≤ k.shift := by simp at hr; omega
    have hck : c < 2 ^ k.shift := lt_of_lt_of_le h (Nat.pow_le_pow_right (by omega) hj)
    have hstep : step k c v = c * 32 + v := by
      have hz' : ∀ (gs : List Nat) (i c : Nat), addGens 0 i gs c = c := by
        intro gs
        induction gs with
        | nil => intros; rfl
        | cons g gs ih => intro i c; simp [addGens, ih]
      have h0 : c >>> k.shift = 0 := by rw [Nat.shiftRight_eq_div_pow]; exact Nat.div_eq_of_lt hck
      unfold step
      rw [h0, hz', Nat.and_two_pow_sub_one_eq_mod, Nat.mod_eq_of_lt hck, Nat.shiftLeft_eq]
      exact shl5_xor c v h1
    have := run_pack k vs (c * 32 + v) (j + 1) (by
      have : 2 ^ (5 * (j + 1)) = 2 ^ (5 * j) * 32 := by rw [Nat.mul_add, pow_add]; rfl
      omega) (fun x hx => hv x (by simp [hx])) (by simp at hr; omega)
    simp only [List.foldl_cons]
    rw [← this]
    simp [run, hstep]

theorem symbolsOf_succ (n m : Nat) : symbolsOf (n + 1) m = ((m >>> (5 * n)) &&& 0x1f) :: symbolsOf n m := by
  unfold symbolsOf
  rw [List.range_succ_eq_map, List.map_cons, List.map_map]
  congr 1
  apply List.map_congr_left
  intro i hi
  simp only [List.mem_range] at hi
  simp only [Function.comp]
  congr 3
  omega

theorem foldl_symbolsOf : ∀ (n m c : Nat),
    (symbolsOf n m).foldl (fun c v => c * 32 + v) c = c * 2 ^ (5 * n) + m % 2 ^ (5 * n)
  | 0, m, c => by simp [symbolsOf, Nat.mod_one]
  | n + 1, m, c => by
    rw [symbolsOf_succ, List.foldl_cons, foldl_symbolsOf n m]
    have h31 : (31 : Nat) = 2 ^ 5 - 1 := rfl
    rw [h31, Nat.and_two_pow_sub_one_eq_mod, Nat.shiftRight_eq_div_pow]
    have e : 2 ^ (5 * (n + 1)) = 2 ^ (5 * n) * 2 ^ 5 := by rw [Nat.mul_add, pow_add]
    rw [e, Nat.mod_mul]
    ring

theorem run_symbolsOf (k : Code) (n m : Nat) (hm : m < 2 ^ (5 * n)) (hn : 5 * n ≤ k.shift + 5) :
    run k 0 (symbolsOf n m) = m := by
  rw [run_pack k (symbolsOf n m) 0 0 (by simp) (symbolsOf_lt n m) (by simpa using hn), foldl_symbolsOf]
  simp [Nat.mod_eq_of_lt hm]

/-- Appending the symbols of `run (x ++ zeros) ^^^ t` makes the run end in `t`. -/
theorem run_checksum {k : Code} (hf : GensFit k) (x : List Nat) (hx : ∀ v ∈ x, v < 32) (n t : Nat)
    (hn : 5 * n = k.shift + 5) (ht : t < 2 ^ (5 * n)) :
    run k 1 (x ++ symbolsOf n (run k 1 (x ++ List.replicate n 0) ^^^ t)) = t := by
  have hlt : run k 1 (x ++ List.replicate n 0) < 2 ^ (5 * n) := by
    rw [hn]
    apply run_lt hf _ _ (Nat.one_lt_two_pow (by omega))
    intro v hv
    rcases List.mem_append.mp hv with h | h
    · exact hx v h
    · rw [List.eq_of_mem_replicate h]; omega
  rw [run_append, run_split]
  simp only [symbolsOf_length]
  rw [run_symbolsOf k n _ (Nat.xor_lt_two_pow hlt ht) (by omega), ← run_append, ← Nat.xor_assoc, Nat.xor_self,
    Nat.zero_xor]

end Verif.PolyMod
