import Verif.Model.Btc
import Verif.Spec.Btc
import Verif.Lemmas.Base
import Verif.Lemmas.Hex
import Verif.Lemmas.OwKeychain

/-! Lemmas about the signature part of `btcTransaction`. -/

namespace Verif.Btc
open Verif Verif.Spec

theorem index_at {α : Type} (a : List α) (x : α) (b : List α) {i : Nat} (h : a.length = i) :
    index (a ++ x :: b) i = .ok x := by subst h; simp

theorem beNat_zeros (k : Nat) (b : Bytes) : beNat (List.replicate k 0 ++ b) = beNat b := by
  induction k with
  | zero => simp
  | succ k ih => rw [List.replicate_succ, List.cons_append, beNat_cons, ih]; simp

theorem beNat_eq_zero : ∀ {b : Bytes}, beNat b = 0 → b = List.replicate b.length 0
  | [], _ => rfl
  | x :: b, h => by
    rw [beNat_cons] at h
    have h1 : x.toNat * 256 ^ b.length = 0 := by omega
    have h2 : beNat b = 0 := by omega
    have h3 : x.toNat = 0 := by
      rcases Nat.mul_eq_zero.mp h1 with h | h
      · exact h
      · exact absurd h (by positivity)
    have : x = 0 := UInt8.toNat_inj.mp h3
    rw [List.length_cons, List.replicate_succ, this, ← beNat_eq_zero h2]

theorem stripZeros_spec : ∀ (f : Nat) (x : UInt8) (t : Bytes), t.length < f → x < 0x80 → beNat (x :: t) ≠ 0 →
    ∃ R, stripZeros f (x :: t) = .ok R ∧ IsDerInt R (beNat (x :: t)) ∧ R.length ≤ (x :: t).length
  | 0, x, t, h, _, _ => by omega
  | f + 1, x, [], h, hx, hn => by
    have hx0 : x ≠ 0 := by rintro rfl; exact hn rfl
    refine ⟨[x], by simp [stripZeros, hx0], ⟨rfl, by simp, ?_, by simp⟩, by simp⟩
    intro y hy
    simp at hy; subst hy; exact hx
  | f + 1, x, y :: t, h, hx, hn => by
    unfold stripZeros
    simp only
    by_cases hc : x = 0 ∧ y < 0x80
    · rw [if_pos hc]
      obtain ⟨rfl, hy⟩ := hc
      have hv : beNat (0 :: y :: t) = beNat (y :: t) := by rw [beNat_cons]; simp
      rw [hv] at hn ⊢
      obtain ⟨R, h1, h2, h3⟩ := stripZeros_spec f y t (by simp at h; omega) hy hn
      exact ⟨R, h1, h2, by simp at h3 ⊢; omega⟩
    · rw [if_neg hc]
      refine ⟨_, rfl, ⟨rfl, by simp, ?_, ?_⟩, by simp⟩
      · intro z hz; simp at hz; subst hz; exact hx
      · intro z s hzs
        simp only [List.cons.injEq] at hzs
        obtain ⟨rfl, rfl, rfl⟩ := hzs
        simp only [true_and] at hc
        have : (0x80 : UInt8) ≤ y := by simpa using hc
        exact this

/-- The DER integer written for a 32-byte number. -/
theorem derBody_spec (r : Bytes) (hl : r.length = 32) (hn : beNat r ≠ 0) :
    ∃ R, derBody r = .ok R ∧ IsDerInt R (beNat r) ∧ R.length ≤ 33 := by
  cases r with
  | nil => simp at hl
  | cons x t =>
    simp only [derBody]
    by_cases hx : x ≥ 0x80
    · rw [if_pos hx]
      refine ⟨_, rfl, ⟨by rw [beNat_cons]; simp, by simp, by simp, ?_⟩, by simp at hl ⊢; omega⟩
      intro y s h
      simp only [List.cons.injEq, true_and] at h
      obtain ⟨rfl, _⟩ := h
      exact hx
    · rw [if_neg hx]
      have hx' : x < 0x80 := by simpa using hx
      obtain ⟨R, h1, h2, h3⟩ := stripZeros_spec 32 x t (by simp at hl; omega) hx' hn
      exact ⟨R, h1, h2, by omega⟩

theorem stripZeros_zero : ∀ (f n : Nat), n < f → stripZeros f (List.replicate (n + 1) 0) = .panic
  | 0, n, h => by omega
  | f + 1, 0, _ => by simp [stripZeros]
  | f + 1, n + 1, h => by
    have := stripZeros_zero f n (by omega)
    simp only [List.replicate_succ] at this ⊢
    simp [stripZeros, this]

theorem derBody_zero (r : Bytes) (hl : r.length = 32) (hn : beNat r = 0) : derBody r = .panic := by
  rw [beNat_eq_zero hn, hl]
  have := stripZeros_zero 32 31 (by omega)
  simp only [List.replicate_succ] at this ⊢
  simp only [derBody]
  rw [if_neg (by decide)]
  exact this

theorem IsDerInt.length_pos {c : Bytes} {v : Nat} (h : IsDerInt c v) : 0 < c.length := by
  cases c with
  | nil => exact absurd rfl h.nonempty
  | cons => simp

theorem IsDerInt.lt {c : Bytes} {v : Nat} (h : IsDerInt c v) : v < 2 ^ (8 * c.length - 1) := by
  cases c with
  | nil => exact absurd rfl h.nonempty
  | cons x t =>
    have hx := h.nonneg x (by simp)
    rw [← h.value, beNat_cons]
    have ht := beNat_lt t
    have : 2 ^ (8 * (x :: t).length - 1) = 128 * 256 ^ t.length := by
      rw [show 8 * (x :: t).length - 1 = 7 + 8 * t.length by simp; omega, pow_add, pow_mul]; norm_num
    rw [this]
    have : (x.toNat + 1) * 256 ^ t.length ≤ 128 * 256 ^ t.length := Nat.mul_le_mul_right _ (by omega)
    linarith

theorem IsDerInt.ge {c : Bytes} {v : Nat} (h : IsDerInt c v) (hl : 2 ≤ c.length) : 2 ^ (8 * (c.length - 1) - 1) ≤ v := by
  match c, hl with
  | x :: y :: t, _ =>
    rw [← h.value, beNat_cons, beNat_cons]
    have e : 2 ^ (8 * ((x :: y :: t).length - 1) - 1) = 128 * 256 ^ t.length := by
      rw [show 8 * ((x :: y :: t).length - 1) - 1 = 7 + 8 * t.length by simp; omega, pow_add, pow_mul]; norm_num
    rw [e]
    by_cases hx : x = 0
    · subst hx
      have := h.minimal y t rfl
      have : 128 * 256 ^ t.length ≤ y.toNat * 256 ^ t.length := Nat.mul_le_mul_right _ (by omega)
      simp only [List.length_cons]
      simp
      omega
    · have hx' : 1 ≤ x.toNat := by
        by_contra hc
        exact hx (UInt8.toNat_inj.mp (by simp; omega))
      have : 1 * 256 ^ (y :: t).length ≤ x.toNat * 256 ^ (y :: t).length := Nat.mul_le_mul_right _ hx'
      have e2 : 256 ^ (y :: t).length = 256 * 256 ^ t.length := by simp [pow_succ, Nat.mul_comm]
      rw [e2] at this ⊢
      have := Nat.zero_le (y.toNat * 256 ^ t.length + beNat t)
      omega

/-- Reading back: the body padded to 32 bytes. -/
theorem intBody_der (r R : Bytes) (hl : r.length = 32) (h : IsDerInt R (beNat r)) (hR : R.length ≤ 33) :
    intBody R = r := by
  unfold intBody
  split
  · rename_i h33
    cases R with
    | nil => simp at h33
    | cons x t =>
      have ht : t.length = 32 := by simpa using h33
      have hx : x.toNat = 0 := by
        by_contra hc
        have h1 : 1 * 256 ^ t.length ≤ x.toNat * 256 ^ t.length := Nat.mul_le_mul_right _ (by omega)
        have h2 := h.value
        rw [beNat_cons] at h2
        have h3 := beNat_lt r
        rw [hl] at h3
        rw [ht] at h1 h2
        omega
      have hv := h.value
      rw [beNat_cons, hx] at hv
      simp only [List.drop_succ_cons, List.drop_zero]
      exact beNat_inj (by omega) (by omega)
  · rename_i h33
    refine beNat_inj (by simp; omega) ?_
    rw [beNat_zeros, h.value]

theorem intBody_length {d : Bytes} (h : d.length ≤ 33) : (intBody d).length = 32 := by
  unfold intBody
  split
  · simp; omega
  · simp; omega

theorem u8_len {n : Nat} (h : n < 256) : (UInt8.ofNat n).toNat = n := by simp; omega

/-- Reading an integer placed in memory. -/
theorem readInt_ok (a d t : Bytes) (limit i : Nat) (ha : a.length = i) (hd : d.length ≤ 33)
    (h33 : d.length = 33 → ∀ x ∈ d.head?, x = 0) (hlim : i + 1 + d.length ≤ limit) :
    readInt (a ++ UInt8.ofNat d.length :: (d ++ t)) limit i = .ok (UInt8.ofNat d.length, d) := by
  unfold readInt at'
  rw [if_neg (by omega), index_at a _ _ ha]
  simp only [Res.bind_ok]
  have hn := u8_len (n := d.length) (by omega)
  have hgt : ¬ (UInt8.ofNat d.length > 0x21) := by
    intro h
    have : (0x21 : UInt8).toNat < (UInt8.ofNat d.length).toNat := h
    rw [hn] at this
    simp at this
    omega
  rw [if_neg hgt]
  have hs : slice (a ++ UInt8.ofNat d.length :: (d ++ t)) (i + 1) (i + 1 + (UInt8.ofNat d.length).toNat) = .ok d := by
    rw [hn, show a ++ UInt8.ofNat d.length :: (d ++ t) = (a ++ [UInt8.ofNat d.length]) ++ (d ++ t) by simp]
    exact slice_mid _ d t (by simp [ha]) rfl
  by_cases h : UInt8.ofNat d.length = 0x21
  · have hl : d.length = 33 := by rw [h] at hn; simpa using hn.symm
    obtain ⟨x, y, r, hxy⟩ : ∃ x y r, d = x :: y :: r := by
      match d, hl with
      | x :: y :: r, _ => exact ⟨x, y, r, rfl⟩
    have hx : x = 0 := h33 hl x (by rw [hxy]; simp)
    have i1 : index (a ++ UInt8.ofNat d.length :: (d ++ t)) (i + 1) = .ok x := by
      rw [show a ++ UInt8.ofNat d.length :: (d ++ t) = (a ++ [UInt8.ofNat d.length]) ++ x :: (y :: r ++ t) by simp [hxy]]
      exact index_at _ _ _ (by simp [ha])
    have i2 : index (a ++ UInt8.ofNat d.length :: (d ++ t)) (i + 2) = .ok y := by
      rw [show a ++ UInt8.ofNat d.length :: (d ++ t) = (a ++ [UInt8.ofNat d.length, x]) ++ y :: (r ++ t) by simp [hxy]]
      exact index_at _ _ _ (by simp [ha])
    rw [if_pos h, if_neg (by omega), i1, i2]
    simp only [Res.bind_ok]
    rw [if_neg (by simp [hx]), if_neg (by omega), hs]
    rfl
  · rw [if_neg h]
    rw [if_neg (by simp), if_neg (by omega), hs]
    rfl

/-- The memory after the reader has appended s to r. -/
def memAfter (hd R S tail : Bytes) : Bytes :=
  let mem := hd ++ R ++ (0x02 :: UInt8.ofNat S.length :: (S ++ tail))
  if R.length < 0x20 ∨ mem.length < hd.length + R.length + 32 then mem
  else overwrite mem (hd.length + R.length) (intBody S)

/-- Reading a signature placed at the start of the memory. -/
theorem readSig_ok (l rs : UInt8) (R S tail : Bytes) (limit : Nat) (hR : R.length ≤ 33) (hS : S.length ≤ 33)
    (h33 : R.length = 33 → ∀ x ∈ R.head?, x = 0) (h33' : S.length = 33 → ∀ x ∈ S.head?, x = 0)
    (hlim : 7 + R.length + S.length ≤ limit) :
    readSig ([l, 0x30, rs, 0x02, UInt8.ofNat R.length] ++ R ++ (0x02 :: UInt8.ofNat S.length :: (S ++ tail))) limit =
      .ok (rs, UInt8.ofNat R.length, UInt8.ofNat S.length, intBody R ++ intBody S,
        memAfter [l, 0x30, rs, 0x02, UInt8.ofNat R.length] R S tail, 7 + R.length + S.length) := by
  have hnR := u8_len (n := R.length) (by omega)
  have hnS := u8_len (n := S.length) (by omega)
  generalize hm : [l, 0x30, rs, 0x02, UInt8.ofNat R.length] ++ R ++ (0x02 :: UInt8.ofNat S.length :: (S ++ tail)) = mem
  have e1 : at' mem limit 1 = .ok 0x30 := by
    rw [at', if_neg (by omega), ← hm]; rfl
  have e2 : at' mem limit 2 = .ok rs := by
    rw [at', if_neg (by omega), ← hm]; rfl
  have e3 : at' mem limit 3 = .ok 0x02 := by
    rw [at', if_neg (by omega), ← hm]; rfl
  have e4 : readInt mem limit 4 = .ok (UInt8.ofNat R.length, R) := by
    rw [← hm]
    have := readInt_ok [l, 0x30, rs, 0x02] R (0x02 :: UInt8.ofNat S.length :: (S ++ tail)) limit 4 rfl hR h33 (by omega)
    simpa using this
  have e5 : at' mem limit (5 + R.length) = .ok 0x02 := by
    rw [at', if_neg (by omega), ← hm]
    exact index_at _ _ _ (by simp; omega)
  have e6 : readInt mem limit (5 + R.length + 1) = .ok (UInt8.ofNat S.length, S) := by
    rw [← hm]
    have := readInt_ok ([l, 0x30, rs, 0x02, UInt8.ofNat R.length] ++ R ++ [0x02]) S tail limit (5 + R.length + 1)
      (by simp; omega) hS h33' (by omega)
    simpa using this
  unfold readSig
  simp only [e1, e2, e3, e4, e5, e6, Res.bind_ok, ne_eq, not_true_eq_false, if_false, hnR, hnS]
  congr 1
  simp only [memAfter, hm, List.length_cons, List.length_nil]
  congr 5
  congr 1
  omega

theorem memAfter_length (hd R S tail : Bytes) (hS : S.length ≤ 33) :
    (memAfter hd R S tail).length = hd.length + R.length + 2 + S.length + tail.length := by
  unfold memAfter
  have hi := intBody_length hS
  simp only
  split
  · simp; omega
  · rename_i h
    simp only [overwrite, hi]
    simp at h ⊢
    omega

/-- The bytes after s are untouched when r is short or s has at least 30 bytes. -/
theorem memAfter_tail (hd R S tail : Bytes) (hS : S.length ≤ 33) (h : R.length < 32 ∨ 30 ≤ S.length) :
    ∃ pre, memAfter hd R S tail = pre ++ tail ∧ pre.length = hd.length + R.length + 2 + S.length := by
  unfold memAfter
  simp only
  by_cases hc : R.length < 0x20 ∨
    (hd ++ R ++ (0x02 :: UInt8.ofNat S.length :: (S ++ tail))).length < hd.length + R.length + 32
  · rw [if_pos hc]
    exact ⟨hd ++ R ++ (0x02 :: UInt8.ofNat S.length :: S), by simp, by simp; omega⟩
  · rw [if_neg hc]
    have h30 : 30 ≤ S.length := by
      rcases h with h | h
      · exact absurd (Or.inl h) hc
      · exact h
    have hi := intBody_length hS
    refine ⟨(hd ++ R) ++ intBody S ++ S.drop 30, ?_, by simp [hi]; omega⟩
    unfold overwrite
    have t1 : List.take (hd.length + R.length) (hd ++ R ++ (0x02 :: UInt8.ofNat S.length :: (S ++ tail))) = hd ++ R := by
      rw [← List.length_append, List.take_left]
    have t2 : List.drop (hd.length + R.length + (intBody S).length)
        (hd ++ R ++ (0x02 :: UInt8.ofNat S.length :: (S ++ tail))) = S.drop 30 ++ tail := by
      rw [hi, ← List.length_append, ← List.drop_drop, List.drop_left]
      simp only [List.drop_succ_cons]
      rw [List.drop_append_of_le_length h30]
    rw [t1, t2]
    simp

/-- The layout used by the readers. -/
theorem push_der (R S : Bytes) (ht : UInt8) (tail : Bytes) :
    push (derSig R S ++ [ht]) ++ tail =
      [UInt8.ofNat (R.length + S.length + 7), 0x30, UInt8.ofNat (R.length + S.length + 4), 0x02, UInt8.ofNat R.length] ++ R ++
        (0x02 :: UInt8.ofNat S.length :: (S ++ ht :: tail)) := by
  have e1 : (derSig R S ++ [ht]).length = R.length + S.length + 7 := by simp [derSig]; omega
  unfold push
  rw [e1]
  simp only [derSig, List.length_append, List.length_cons, List.cons_append, List.nil_append,
    List.append_assoc]
  congr 4

/-! ### What an accepted script looks like -/

theorem at'_ok {mem : Bytes} {limit i : Nat} {x : UInt8} (h : at' mem limit i = .ok x) :
    i < limit ∧ mem[i]? = some x := by
  unfold at' at h
  split at h
  · simp at h
  · unfold index at h
    split at h
    · rename_i y hy
      simp only [Res.ok.injEq] at h
      exact ⟨by omega, by rw [hy, h]⟩
    · simp at h

theorem drop_of_get {α : Type} {l : List α} {i : Nat} {x : α} (h : l[i]? = some x) : l.drop i = x :: l.drop (i + 1) := by
  rw [List.getElem?_eq_some_iff] at h
  obtain ⟨h1, h2⟩ := h
  rw [List.drop_eq_getElem_cons h1, h2]

theorem readInt_shape {mem : Bytes} {limit i : Nat} {n : UInt8} {d : Bytes} (h : readInt mem limit i = .ok (n, d)) :
    i + 1 + d.length ≤ limit ∧ d.length ≤ 33 ∧ n = UInt8.ofNat d.length ∧
      mem.drop i = n :: (d ++ mem.drop (i + 1 + d.length)) := by
  unfold readInt at h
  rw [Res.bind_eq_ok] at h
  obtain ⟨x, hx, h⟩ := h
  obtain ⟨_, hxi⟩ := at'_ok hx
  split at h
  · simp at h
  rename_i hgt
  have key : ∀ y : Res (UInt8 × Bytes), (if i + 1 + x.toNat > limit then (.err : Res (UInt8 × Bytes)) else
      (slice mem (i + 1) (i + 1 + x.toNat)).bind fun d => .ok (x, d)) = y → y = .ok (n, d) →
      i + 1 + d.length ≤ limit ∧ d.length ≤ 33 ∧ n = UInt8.ofNat d.length ∧
      mem.drop i = n :: (d ++ mem.drop (i + 1 + d.length)) := by
    intro y hy hyo
    rw [← hy] at hyo
    split at hyo
    · simp at hyo
    rename_i hlim
    unfold slice at hyo
    split at hyo
    · rename_i hc
      simp only [Res.bind, Res.ok.injEq, Prod.mk.injEq] at hyo
      obtain ⟨rfl, rfl⟩ := hyo
      have hl : (List.drop (i + 1) (List.take (i + 1 + x.toNat) mem)).length = x.toNat := by simp; omega
      have h33 : x.toNat ≤ 33 := by
        have : ¬ (0x21 : UInt8).toNat < x.toNat := hgt
        simpa using this
      rw [hl]
      refine ⟨by omega, h33, ?_, ?_⟩
      · apply UInt8.toNat_inj.mp; simp
      · rw [drop_of_get hxi]
        congr 1
        rw [← List.drop_append_of_le_length (by simp; omega), List.take_append_drop]
    · simp [Res.bind] at hyo
  by_cases h33 : x = 0x21
  · rw [if_pos h33] at h
    by_cases hlim : i + 1 + 2 > limit
    · rw [if_pos hlim] at h; simp at h
    · rw [if_neg hlim] at h
      simp only [Res.bind_eq_ok] at h
      obtain ⟨bad, ⟨a, _, b, _, hbad⟩, h⟩ := h
      by_cases hb : bad = true
      · rw [if_pos hb] at h; simp at h
      · rw [if_neg hb] at h
        exact key _ rfl h
  · rw [if_neg h33] at h
    simp only [Res.bind_ok, Bool.false_eq_true, if_false] at h
    exact key _ rfl h

theorem intBody_value {d : Bytes} (h : d.length ≤ 33) : beNat (intBody d) = beNat d % 2 ^ 256 := by
  have e : (2 : Nat) ^ 256 = 256 ^ 32 := by norm_num
  unfold intBody
  split
  · rename_i h33
    cases d with
    | nil => simp at h33
    | cons x t =>
      have ht : t.length = 32 := by simpa using h33
      have := beNat_lt t
      rw [beNat_cons, e, ht] at *
      simp only [List.drop_succ_cons, List.drop_zero]
      rw [Nat.mul_add_mod_self_right, Nat.mod_eq_of_lt this]
  · rename_i h33
    rw [beNat_zeros, Nat.mod_eq_of_lt]
    rw [e]
    refine lt_of_lt_of_le (beNat_lt d) (Nat.pow_le_pow_right (by omega) ?_)
    omega

/-- Non-negative numbers have one canonical DER integer. -/
theorem IsDerInt.unique {a b : Bytes} {v : Nat} (ha : IsDerInt a v) (hb : IsDerInt b v) : a = b := by
  have key : ∀ {a b : Bytes}, IsDerInt a v → IsDerInt b v → a.length < b.length → False := by
    intro a b ha hb hlt
    have h1 := IsDerInt.lt ha
    have h0 := IsDerInt.length_pos ha
    have h2 := IsDerInt.ge hb (by omega)
    have : 2 ^ (8 * a.length - 1) ≤ 2 ^ (8 * (b.length - 1) - 1) := Nat.pow_le_pow_right (by omega) (by omega)
    omega
  have hl : a.length = b.length := by
    rcases Nat.lt_trichotomy a.length b.length with h | h | h
    · exact (key ha hb h).elim
    · exact h
    · exact (key hb ha h).elim
  exact beNat_inj hl (by rw [ha.value, hb.value])

theorem readSig_shape {mem : Bytes} {limit : Nat} {rs rl sl : UInt8} {sig mem' : Bytes} {i : Nat}
    (h : readSig mem limit = .ok (rs, rl, sl, sig, mem', i)) :
    ∃ l R S tail, R.length ≤ 33 ∧ S.length ≤ 33 ∧ rl = UInt8.ofNat R.length ∧ sl = UInt8.ofNat S.length ∧
      mem = [l, 0x30, rs, 0x02, rl] ++ R ++ (0x02 :: sl :: (S ++ tail)) ∧
      sig = intBody R ++ intBody S ∧ i = 7 + R.length + S.length ∧ i ≤ limit ∧
      mem' = memAfter [l, 0x30, rs, 0x02, rl] R S tail := by
  unfold readSig at h
  rw [Res.bind_eq_ok] at h
  obtain ⟨x1, h1, h⟩ := h
  split at h
  · simp at h
  rename_i hx1
  rw [Res.bind_eq_ok] at h
  obtain ⟨x2, h2, h⟩ := h
  rw [Res.bind_eq_ok] at h
  obtain ⟨x3, h3, h⟩ := h
  split at h
  · simp at h
  rename_i hx3
  rw [Res.bind_eq_ok] at h
  obtain ⟨⟨rLen, R⟩, h4, h⟩ := h
  simp only at h
  rw [Res.bind_eq_ok] at h
  obtain ⟨x5, h5, h⟩ := h
  split at h
  · simp at h
  rename_i hx5
  rw [Res.bind_eq_ok] at h
  obtain ⟨⟨sLen, S⟩, h6, h⟩ := h
  simp only [Res.ok.injEq, Prod.mk.injEq] at h
  obtain ⟨rfl, rfl, rfl, rfl, hm', rfl⟩ := h
  simp only [not_not] at hx1 hx3 hx5
  subst hx1 hx3 hx5
  obtain ⟨_, e1⟩ := at'_ok h1
  obtain ⟨_, e2⟩ := at'_ok h2
  obtain ⟨_, e3⟩ := at'_ok h3
  obtain ⟨k1, k2, k3, k4⟩ := readInt_shape h4
  have hrl : rLen.toNat = R.length := by rw [k3]; simp; omega
  obtain ⟨_, e5⟩ := at'_ok h5
  obtain ⟨k6, k7, k8, k9⟩ := readInt_shape h6
  have hsl : sLen.toNat = S.length := by rw [k8]; simp; omega
  rw [hrl] at e5 k9 hm' k6 ⊢
  rw [hsl] at *
  obtain ⟨l, e0⟩ : ∃ l, mem[0]? = some l := by
    cases mem with
    | nil => simp at e1
    | cons l t => exact ⟨l, rfl⟩
  have hmem : mem = [l, 0x30, x2, 0x02, rLen] ++ R ++
      (0x02 :: sLen :: (S ++ mem.drop (5 + R.length + 1 + 1 + S.length))) := by
    have d0 : mem = l :: 0x30 :: x2 :: 0x02 :: mem.drop 4 := by
      conv_lhs => rw [← List.drop_zero (l := mem), drop_of_get e0, drop_of_get e1, drop_of_get e2, drop_of_get e3]
    conv_lhs => rw [d0, k4, show 4 + 1 + R.length = 5 + R.length by omega, drop_of_get e5, k9]
    simp
  refine ⟨l, R, S, mem.drop (5 + R.length + 1 + 1 + S.length), k2, k7, k3, k8, hmem, rfl, by omega, by omega, ?_⟩
  rw [← hm']
  unfold memAfter
  simp only [← k8]
  rw [← hmem]
  simp only [List.length_cons, List.length_nil]

theorem decodeSig_shape {b sig m : Bytes} {ht : UInt8} (h : decodeSig b b.length = .ok (sig, ht, m)) :
    ∃ R S t, R.length ≤ 33 ∧ S.length ≤ 33 ∧ b = push (derSig R S ++ [t]) ∧ sig = intBody R ++ intBody S ∧
      (R.length < 32 ∨ 30 ≤ S.length → ht = t) := by
  unfold decodeSig at h
  split at h
  · simp at h
  rw [Res.bind_eq_ok] at h
  obtain ⟨sl, h0, h⟩ := h
  split at h
  · simp at h
  rename_i hlen
  rw [Res.bind_eq_ok] at h
  obtain ⟨⟨rs, rl, s, sg, m', i⟩, h1, h⟩ := h
  simp only at h
  rw [Res.bind_eq_ok] at h
  obtain ⟨t', h2, h⟩ := h
  split at h
  · simp at h
  rename_i hc
  simp only [Res.ok.injEq, Prod.mk.injEq] at h
  obtain ⟨rfl, rfl, rfl⟩ := h
  obtain ⟨l, R, S, tail, lR, lS, e1, e2, hb, hsig, hi, hlim, hm⟩ := readSig_shape h1
  obtain ⟨k1, k3⟩ := at'_ok h2
  have hl : l = sl := by
    rw [hb] at h0
    exact Res.ok.inj h0
  subst hl
  simp only [not_or, not_not] at hc
  obtain ⟨c1, c2⟩ := hc
  subst e1 e2
  have n1 : rs.toNat = R.length + S.length + 4 := by
    rw [← c1]; simp [UInt8.toNat_add]; omega
  have n2 : l.toNat = R.length + S.length + 7 := by
    rw [← c2]; simp [UInt8.toNat_add]; omega
  have n1' : rs = UInt8.ofNat (R.length + S.length + 4) := by apply UInt8.toNat_inj.mp; rw [n1]; simp; omega
  have n2' : l = UInt8.ofNat (R.length + S.length + 7) := by apply UInt8.toNat_inj.mp; rw [n2]; simp; omega
  have htl : tail.length = 1 := by
    have := congrArg List.length hb
    simp at this
    omega
  obtain ⟨t, rfl⟩ : ∃ t, tail = [t] := List.length_eq_one_iff.mp htl
  refine ⟨R, S, t, lR, lS, ?_, hsig, ?_⟩
  · rw [hb, n1', n2']
    rw [← List.append_nil (push _), push_der]
  · intro hsh
    obtain ⟨pre, hpre, hpl⟩ := memAfter_tail [l, 0x30, rs, 0x02, UInt8.ofNat R.length] R S [t] lS hsh
    rw [hm, hpre, hi, show 7 + R.length + S.length = pre.length by rw [hpl]; simp; omega] at k3
    simpa using k3.symm

end Verif.Btc
