import Verif.Spec.DerRead
import Verif.Props.BtcSig

/-! C24, C25: exactly which unlocking scripts the Bitcoin packages read as a signature and a key, and which signatures survive being written and read. -/

namespace Verif
open Verif.Spec Verif.Btc Verif.Spec.DerRead

namespace DerRead

theorem intBody_word {X : Bytes} (h : X.length ≤ 33) : intBody X = word X := by
  unfold intBody word
  by_cases h33 : X.length = 0x21
  · rw [if_pos h33, h33]; rfl
  · rw [if_neg h33, show X.length - 32 = 0 by omega, List.drop_zero]

theorem word_length {X : Bytes} (h : X.length ≤ 33) : (word X).length = 32 := by
  rw [← intBody_word h, intBody_length h]

theorem readInt_loose {mem : Bytes} {limit i : Nat} {n : UInt8} {d : Bytes} (h : readInt mem limit i = .ok (n, d)) : LooseInt d := by
  obtain ⟨_, k2, k3, k4⟩ := readInt_shape h
  refine ⟨k2, fun h33 => ?_⟩
  have hn : n = 0x21 := by rw [k3, h33]; rfl
  obtain ⟨x, y, r, hd⟩ : ∃ x y r, d = x :: y :: r := by
    match d, h33 with
    | x :: y :: r, _ => exact ⟨x, y, r, rfl⟩
  have g : ∀ j, mem[i + j]? = (n :: (d ++ mem.drop (i + 1 + d.length)))[j]? := by
    intro j; rw [← k4, List.getElem?_drop]
  have g0 := g 0
  have g1 := g 1
  have g2 := g 2
  simp only [hd, List.cons_append, List.getElem?_cons_zero, List.getElem?_cons_succ, Nat.add_zero] at g0 g1 g2
  rw [hd]
  simp only [List.getElem?_cons_zero, List.getElem?_cons_succ, Option.some.injEq]
  unfold readInt at h
  obtain ⟨x', hx, h⟩ := Res.bind_eq_ok.mp h
  obtain ⟨_, hx'⟩ := at'_ok hx
  rw [g0] at hx'
  cases hx'
  rw [hn] at h
  rw [if_neg (by decide), if_pos rfl] at h
  by_cases hlim : i + 1 + 2 > limit
  · rw [if_pos hlim] at h; cases h
  rw [if_neg hlim] at h
  have i1 : index mem (i + 1) = .ok x := by unfold index; rw [g1]
  have i2 : index mem (i + 2) = .ok y := by unfold index; rw [g2]
  rw [i1, i2] at h
  simp only [Res.bind_ok] at h
  by_cases hbad : x ≠ 0 ∧ y < 0x80
  · rw [if_pos (by simpa using hbad)] at h; cases h
  · by_cases hx0 : x = 0
    · exact .inl hx0
    · exact .inr ⟨y, rfl, UInt8.not_lt.mp fun hy => hbad ⟨hx0, hy⟩⟩

theorem readInt_take (a d t : Bytes) (limit i : Nat) (ha : a.length = i) (hd : LooseInt d) (hlim : i + 1 + d.length ≤ limit) :
    readInt (a ++ UInt8.ofNat d.length :: (d ++ t)) limit i = .ok (UInt8.ofNat d.length, d) := by
  obtain ⟨hd, h33⟩ := hd
  unfold readInt at'
  rw [if_neg (by omega), index_at a _ _ ha]
  simp only [Res.bind_ok]
  have hn := u8_len (n := d.length) (by omega)
  have hgt : ¬ (UInt8.ofNat d.length > 0x21) := by
    intro h
    have : (0x21 : UInt8).toNat < (UInt8.ofNat d.length).toNat := h
    rw [hn] at this
    simp at this
    omega
  rw [if_neg hgt]
  have hs : slice (a ++ UInt8.ofNat d.length :: (d ++ t)) (i + 1) (i + 1 + (UInt8.ofNat d.length).toNat) = .ok d := by
    rw [hn, show a ++ UInt8.ofNat d.length :: (d ++ t) = (a ++ [UInt8.ofNat d.length]) ++ (d ++ t) by simp]
    exact slice_mid _ d t (by simp [ha]) rfl
  by_cases h : UInt8.ofNat d.length = 0x21
  · have hl : d.length = 33 := by rw [h] at hn; simpa using hn.symm
    obtain ⟨x, y, r, hxy⟩ : ∃ x y r, d = x :: y :: r := by
      match d, hl with
      | x :: y :: r, _ => exact ⟨x, y, r, rfl⟩
    have hx : ¬ (x ≠ 0 ∧ y < 0x80) := by
      have := h33 hl
      rw [hxy] at this
      simp only [List.getElem?_cons_zero, List.getElem?_cons_succ, Option.some.injEq] at this
      rintro ⟨h1, h2⟩
      rcases this with h | ⟨b, rfl, h⟩
      · exact h1 h
      · exact UInt8.not_lt.mpr h h2
    have i1 : index (a ++ UInt8.ofNat d.length :: (d ++ t)) (i + 1) = .ok x := by
      rw [show a ++ UInt8.ofNat d.length :: (d ++ t) = (a ++ [UInt8.ofNat d.length]) ++ x :: (y :: r ++ t) by simp [hxy]]
      exact index_at _ _ _ (by simp [ha])
    have i2 : index (a ++ UInt8.ofNat d.length :: (d ++ t)) (i + 2) = .ok y := by
      rw [show a ++ UInt8.ofNat d.length :: (d ++ t) = (a ++ [UInt8.ofNat d.length, x]) ++ y :: (r ++ t) by simp [hxy]]
      exact index_at _ _ _ (by simp [ha])
    rw [if_pos h, if_neg (by omega), i1, i2]
    simp only [Res.bind_ok]
    rw [if_neg (by simpa using hx), if_neg (by omega), hs]
    rfl
  · rw [if_neg h]
    rw [if_neg (by simp), if_neg (by omega), hs]
    rfl

theorem readSig_take (l rs : UInt8) (R S tail : Bytes) (limit : Nat) (hR : LooseInt R) (hS : LooseInt S)
    (hlim : 7 + R.length + S.length ≤ limit) :
    readSig ([l, 0x30, rs, 0x02, UInt8.ofNat R.length] ++ R ++ (0x02 :: UInt8.ofNat S.length :: (S ++ tail))) limit =
      .ok (rs, UInt8.ofNat R.length, UInt8.ofNat S.length, intBody R ++ intBody S,
        memAfter [l, 0x30, rs, 0x02, UInt8.ofNat R.length] R S tail, 7 + R.length + S.length) := by
  have lR := hR.1
  have lS := hS.1
  have hnR := u8_len (n := R.length) (by omega)
  have hnS := u8_len (n := S.length) (by omega)
  generalize hm : [l, 0x30, rs, 0x02, UInt8.ofNat R.length] ++ R ++ (0x02 :: UInt8.ofNat S.length :: (S ++ tail)) = mem
  have e1 : at' mem limit 1 = .ok 0x30 := by
    rw [at', if_neg (by omega), ← hm]; rfl
  have e2 : at' mem limit 2 = .ok rs := by
    rw [at', if_neg (by omega), ← hm]; rfl
  have e3 : at' mem limit 3 = .ok 0x02 := by
    rw [at', if_neg (by omega), ← hm]; rfl
  have e4 : readInt mem limit 4 = .ok (UInt8.ofNat R.length, R) := by
    rw [← hm]
    have := readInt_take [l, 0x30, rs, 0x02] R (0x02 :: UInt8.ofNat S.length :: (S ++ tail)) limit 4 rfl hR (by omega)
    simpa using this
  have e5 : at' mem limit (5 + R.length) = .ok 0x02 := by
    rw [at', if_neg (by omega), ← hm]
    exact index_at _ _ _ (by simp; omega)
  have e6 : readInt mem limit (5 + R.length + 1) = .ok (UInt8.ofNat S.length, S) := by
    rw [← hm]
    have := readInt_take ([l, 0x30, rs, 0x02, UInt8.ofNat R.length] ++ R ++ [0x02]) S tail limit (5 + R.length + 1)
      (by simp; omega) hS (by omega)
    simpa using this
  unfold readSig
  simp only [e1, e2, e3, e4, e5, e6, Res.bind_ok, ne_eq, not_true_eq_false, if_false, hnR, hnS]
  congr 1
  simp only [memAfter, hm, List.length_cons, List.length_nil]
  congr 5
  congr 1
  omega

theorem readSig_loose {mem : Bytes} {limit : Nat} {rs rl sl : UInt8} {sig mem' : Bytes} {i : Nat}
    (h : readSig mem limit = .ok (rs, rl, sl, sig, mem', i)) :
    ∃ l R S tail, LooseInt R ∧ LooseInt S ∧ rl = UInt8.ofNat R.length ∧ sl = UInt8.ofNat S.length ∧
      mem = [l, 0x30, rs, 0x02, rl] ++ R ++ (0x02 :: sl :: (S ++ tail)) ∧
      sig = intBody R ++ intBody S ∧ i = 7 + R.length + S.length ∧ i ≤ limit ∧
      mem' = memAfter [l, 0x30, rs, 0x02, rl] R S tail := by
  unfold readSig at h
  rw [Res.bind_eq_ok] at h
  obtain ⟨x1, h1, h⟩ := h
  split at h
  · simp at h
  rename_i hx1
  rw [Res.bind_eq_ok] at h
  obtain ⟨x2, h2, h⟩ := h
  rw [Res.bind_eq_ok] at h
  obtain ⟨x3, h3, h⟩ := h
  split at h
  · simp at h
  rename_i hx3
  rw [Res.bind_eq_ok] at h
  obtain ⟨⟨rLen, R⟩, h4, h⟩ := h
  simp only at h
  rw [Res.bind_eq_ok] at h
  obtain ⟨x5, h5, h⟩ := h
  split at h
  · simp at h
  rename_i hx5
  rw [Res.bind_eq_ok] at h
  obtain ⟨⟨sLen, S⟩, h6, h⟩ := h
  simp only [Res.ok.injEq, Prod.mk.injEq] at h
  obtain ⟨rfl, rfl, rfl, rfl, hm', rfl⟩ := h
  simp only [not_not] at hx1 hx3 hx5
  subst hx1 hx3 hx5
  obtain ⟨_, e1⟩ := at'_ok h1
  obtain ⟨_, e2⟩ := at'_ok h2
  obtain ⟨_, e3⟩ := at'_ok h3
  obtain ⟨k1, k2, k3, k4⟩ := readInt_shape h4
  have hrl : rLen.toNat = R.length := by rw [k3]; simp; omega
  obtain ⟨_, e5⟩ := at'_ok h5
  obtain ⟨k6, k7, k8, k9⟩ := readInt_shape h6
  have hsl : sLen.toNat = S.length := by rw [k8]; simp; omega
  rw [hrl] at e5 k9 hm' k6 ⊢
  rw [hsl] at *
  obtain ⟨l, e0⟩ : ∃ l, mem[0]? = some l := by
    cases mem with
    | nil => simp at e1
    | cons l t => exact ⟨l, rfl⟩
  have hmem : mem = [l, 0x30, x2, 0x02, rLen] ++ R ++
      (0x02 :: sLen :: (S ++ mem.drop (5 + R.length + 1 + 1 + S.length))) := by
    have d0 : mem = l :: 0x30 :: x2 :: 0x02 :: mem.drop 4 := by
      conv_lhs => rw [← List.drop_zero (l := mem), drop_of_get e0, drop_of_get e1, drop_of_get e2, drop_of_get e3]
    conv_lhs => rw [d0, k4, show 4 + 1 + R.length = 5 + R.length by omega, drop_of_get e5, k9]
    simp
  refine ⟨l, R, S, mem.drop (5 + R.length + 1 + 1 + S.length), readInt_loose h4, readInt_loose h6, k3, k8, hmem, rfl, by omega, by omega, ?_⟩
  rw [← hm']
  unfold memAfter
  simp only [← k8]
  rw [← hmem]
  simp only [List.length_cons, List.length_nil]


/-- The memory behind the integers. -/
theorem memAfter_drop (hd R S T : Bytes) (hS : S.length ≤ 33) (hT : 30 ≤ S.length + T.length) :
    (memAfter hd R S T).drop (hd.length + R.length + 2 + S.length) = seen R S T := by
  unfold memAfter seen
  have hw := word_length hS
  dsimp only
  rw [intBody_word hS]
  by_cases c : R.length < 32
  · rw [if_pos (.inl c), if_pos c]
    rw [show hd ++ R ++ (0x02 :: UInt8.ofNat S.length :: (S ++ T)) = (hd ++ R ++ [0x02, UInt8.ofNat S.length] ++ S) ++ T by simp]
    exact List.drop_left' (by simp; omega)
  · rw [if_neg c, if_neg (by simp; omega)]
    have dl : ∀ (A B : Bytes) (n : Nat), (A ++ B).drop (A.length + n) = B.drop n := by
      intro A B n
      rw [← List.drop_drop, List.drop_left]
    have e1 : (hd ++ R ++ (0x02 :: UInt8.ofNat S.length :: (S ++ T))).drop (hd.length + R.length + 32) = (S ++ T).drop 30 := by
      rw [show hd.length + R.length + 32 = (hd ++ R).length + 32 by simp, dl]; rfl
    unfold overwrite
    rw [hw, e1, List.take_left' (by simp), List.append_assoc]
    rw [show hd.length + R.length + 2 + S.length = (hd ++ R).length + (S.length + 2) by simp; omega, dl, List.drop_append, hw, List.drop_drop, List.drop_append]
    congr 1
    rw [List.drop_eq_nil_of_le (by omega), List.nil_append]
    congr 1
    omega

theorem u8_inj {a b : Nat} (ha : a ≤ 33) (hb : b ≤ 33) (h : UInt8.ofNat a = UInt8.ofNat b) : a = b := by
  have := congrArg UInt8.toNat h
  simp only [UInt8.toNat_ofNat'] at this
  omega

theorem der_inj {R S T R' S' T' : Bytes} (hR : R.length ≤ 33) (hS : S.length ≤ 33) (hR' : R'.length ≤ 33) (hS' : S'.length ≤ 33)
    (h : derSig R S ++ T = derSig R' S' ++ T') : R = R' ∧ S = S' ∧ T = T' := by
  simp only [derSig, List.cons_append, List.nil_append, List.append_assoc, List.cons.injEq, true_and] at h
  obtain ⟨_, h1, h2⟩ := h
  obtain ⟨rfl, h3⟩ := List.append_inj h2 (u8_inj hR hR' h1)
  simp only [List.cons.injEq, true_and] at h3
  obtain ⟨h4, h5⟩ := h3
  obtain ⟨rfl, rfl⟩ := List.append_inj h5 (u8_inj hS hS' h4)
  exact ⟨rfl, rfl, rfl⟩

/-- Canonical integers of 256-bit numbers are accepted. -/
theorem der_loose {c b : Bytes} (hb : b.length = 32) (hd : IsDerInt c (beNat b)) (hl : c.length ≤ 33) : LooseInt c := by
  refine ⟨hl, fun hc => .inl ?_⟩
  cases c with
  | nil => simp at hc
  | cons y t =>
    rw [List.getElem?_cons_zero, Option.some.injEq]
    by_contra h0
    have hv := hd.value
    rw [beNat_cons] at hv
    have h1 := beNat_lt b
    have hy : 1 ≤ y.toNat := by
      by_contra hcc
      exact h0 (UInt8.toNat_inj.mp (by simp; omega))
    have h2 : 1 * 256 ^ t.length ≤ y.toNat * 256 ^ t.length := Nat.mul_le_mul_right _ hy
    have ht : t.length = 32 := by simpa using hc
    rw [ht] at h2 hv
    rw [hb] at h1
    omega

end DerRead
open DerRead

/-- C25, exactly: the unlocking script of a single key is read as the signature `sig` with type `ht` and the key `pub` if and only if it consists of a length byte, a DER sequence of two integers of the
accepted kind (`LooseInt`), with all lengths right, and 35 more bytes that, as they are seen after appending s to r overwrote some of them, are the type, 0x21 and the key. -/
theorem C25_language (script sig pub : Bytes) (ht : UInt8) : decodeSigPub script = .ok (sig, pub, ht) ↔
    ∃ R S T, LooseInt R ∧ LooseInt S ∧ T.length = 35 ∧ script = UInt8.ofNat ((derSig R S).length + 1) :: derSig R S ++ T ∧
      sig = word R ++ word S ∧ seen R S T = ht :: 0x21 :: pub := by
  have layout : ∀ R S T : Bytes, UInt8.ofNat ((derSig R S).length + 1) :: derSig R S ++ T =
      [UInt8.ofNat (R.length + S.length + 7), 0x30, UInt8.ofNat (R.length + S.length + 4), 0x02, UInt8.ofNat R.length] ++ R ++ (0x02 :: UInt8.ofNat S.length :: (S ++ T)) := by
    intro R S T
    have e1 : (derSig R S).length + 1 = R.length + S.length + 7 := by simp [derSig]; omega
    rw [e1]
    simp only [derSig, List.length_append, List.length_cons, List.cons_append, List.nil_append, List.append_assoc]
    congr 4
  have hlast : ∀ (m : Bytes) (i : Nat) (T' : Bytes), m.drop i = T' → T'.length = 35 → i + 35 = m.length →
      index m i = index T' 0 ∧ index m (i + 1) = index T' 1 ∧ slice m (i + 2) (i + 35) = .ok (T'.drop 2) := by
    intro m i T' hT h35 hl
    refine ⟨?_, ?_, ?_⟩
    · unfold index; rw [← hT, List.getElem?_drop, Nat.add_zero]
    · unfold index; rw [← hT, List.getElem?_drop]
    · rw [slice_ok (by omega) (by omega), List.take_of_length_le (by omega), ← hT, List.drop_drop]
  have seen_len : ∀ R S T : Bytes, S.length ≤ 33 → T.length = 35 → (seen R S T).length = 35 := by
    intro R S T hS hT
    unfold seen
    split_ifs
    · exact hT
    · simp [word_length hS, hT]; omega
  constructor
  · intro h
    unfold decodeSigPub at h
    dsimp only at h
    by_cases c0 : script.length = 0
    · rw [if_pos c0] at h; cases h
    rw [if_neg c0] at h
    obtain ⟨sigLen, h0, h⟩ := Res.bind_eq_ok.mp h
    obtain ⟨⟨rs, rl, sl, sg, mem, i⟩, h1, h⟩ := Res.bind_eq_ok.mp h
    dsimp only at h
    obtain ⟨st, h2, h⟩ := Res.bind_eq_ok.mp h
    obtain ⟨pl, h3, h⟩ := Res.bind_eq_ok.mp h
    by_cases c1 : pl ≠ 0x21
    · rw [if_pos c1] at h; cases h
    rw [if_neg c1] at h
    simp only [not_not] at c1
    by_cases c2 : i + 2 + 33 > script.length
    · rw [if_pos c2] at h; cases h
    rw [if_neg c2] at h
    obtain ⟨p, h4, h⟩ := Res.bind_eq_ok.mp h
    by_cases c3 : rl + sl + 4 ≠ rs ∨ rs + 3 ≠ sigLen ∨ sigLen + pl + 2 ≠ UInt8.ofNat script.length
    · rw [if_pos c3] at h; cases h
    rw [if_neg c3] at h
    by_cases c4 : i + 35 ≠ script.length
    · rw [if_pos c4] at h; cases h
    rw [if_neg c4] at h
    cases h
    obtain ⟨l, R, S, T, hR, hS, e1, e2, hb, hsig, hi, hlim, hm⟩ := readSig_loose h1
    simp only [not_or, not_not] at c3 c4
    obtain ⟨d1, d2, _⟩ := c3
    have lR := hR.1
    have lS := hS.1
    subst e1 e2
    have hl : l = sigLen := by rw [hb] at h0; exact Res.ok.inj h0
    subst hl
    have n1 : rs = UInt8.ofNat (R.length + S.length + 4) := by
      rw [← d1]; apply UInt8.toNat_inj.mp; simp [UInt8.toNat_add]
    have n2 : l = UInt8.ofNat (R.length + S.length + 7) := by
      rw [← d2, n1]; apply UInt8.toNat_inj.mp; simp [UInt8.toNat_add]
    have hT : T.length = 35 := by
      have := congrArg List.length hb
      simp at this
      omega
    have hml : mem.length = script.length := by
      rw [hm, memAfter_length _ _ _ _ lS, hb]; simp; omega
    have hd : mem.drop i = seen R S T := by
      rw [hm, ← memAfter_drop [l, 0x30, rs, 0x02, UInt8.ofNat R.length] R S T lS (by omega)]
      congr 1
      simp; omega
    obtain ⟨j1, j2, j3⟩ := hlast mem i _ hd (seen_len R S T lS hT) (by omega)
    refine ⟨R, S, T, hR, hS, hT, ?_, ?_, ?_⟩
    · rw [layout, ← n1, ← n2]; exact hb
    · rw [hsig, intBody_word lR, intBody_word lS]
    · unfold at' at h2 h3
      rw [if_neg (by omega), j1] at h2
      rw [if_neg (by omega), j2, c1] at h3
      rw [j3] at h4
      have h35 := seen_len R S T lS hT
      generalize seen R S T = q at h2 h3 h4 h35
      match q, h35 with
      | a :: b :: q, _ =>
        cases h2; cases h3; cases h4; rfl
  · rintro ⟨R, S, T, hR, hS, hT, hb, rfl, hseen⟩
    have lR := hR.1
    have lS := hS.1
    rw [layout] at hb
    have hlen : script.length = 42 + R.length + S.length := by rw [hb]; simp [hT]; omega
    have rs := readSig_take (UInt8.ofNat (R.length + S.length + 7)) (UInt8.ofNat (R.length + S.length + 4)) R S T script.length hR hS (by omega)
    rw [← hb] at rs
    generalize hmem : memAfter [UInt8.ofNat (R.length + S.length + 7), 0x30, UInt8.ofNat (R.length + S.length + 4), 0x02, UInt8.ofNat R.length] R S T = mem at rs
    have hml : mem.length = script.length := by
      rw [← hmem, memAfter_length _ _ _ _ lS, hlen]; simp [hT]; omega
    have hd : mem.drop (7 + R.length + S.length) = seen R S T := by
      rw [← hmem, ← memAfter_drop [UInt8.ofNat (R.length + S.length + 7), 0x30, UInt8.ofNat (R.length + S.length + 4), 0x02, UInt8.ofNat R.length] R S T lS (by omega)]
      congr 1
      simp; omega
    obtain ⟨j1, j2, j3⟩ := hlast mem _ _ hd (seen_len R S T lS hT) (by omega)
    rw [hseen] at j1 j2 j3
    have h0 : index script 0 = .ok (UInt8.ofNat (R.length + S.length + 7)) := by rw [hb]; rfl
    unfold decodeSigPub
    dsimp only
    rw [if_neg (by omega), h0, Res.bind_ok, rs, Res.bind_ok]
    dsimp only
    unfold at'
    rw [if_neg (by omega), j1]
    simp only [index, List.getElem?_cons_zero, Res.bind_ok]
    rw [if_neg (by omega)]
    have j2' : index mem (7 + R.length + S.length + 1) = .ok 0x21 := j2
    unfold index at j2'
    rw [j2', Res.bind_ok, if_neg (by simp), if_neg (by omega), j3]
    simp only [Res.bind_ok, List.drop_succ_cons, List.drop_zero]
    rw [if_neg, if_neg (by omega), intBody_word lR, intBody_word lS]
    simp only [not_or, not_not]
    refine ⟨?_, ?_, ?_⟩
    · apply UInt8.toNat_inj.mp; simp [UInt8.toNat_add]
    · apply UInt8.toNat_inj.mp; simp [UInt8.toNat_add]
    · rw [hlen]; apply UInt8.toNat_inj.mp; simp [UInt8.toNat_add]; omega

/-- C24 (b), exactly: a signature and a key written to an unlocking script are read back unchanged if and only if r is below 2^247, or the zeros that fill s up to 32 bytes where it is appended to r hide
nothing: with `S` the canonical integer of s, the bytes of the padded s from `|S| + 2` on (none if `|S| ≥ 30`) are the first of the type, 0x21 and the key. -/
theorem C24_exact (sig pub script : Bytes) (ht : UInt8) (hl : sig.length = 64) (hp : pub.length = 33)
    (hr : beNat (sig.take 32) ≠ 0) (hs : beNat (sig.drop 32) ≠ 0) (he : encodeSigPub sig pub ht = .ok script) :
    decodeSigPub script = .ok (sig, pub, ht) ↔ beNat (sig.take 32) < 2 ^ 247 ∨
      ∃ S, IsDerInt S (beNat (sig.drop 32)) ∧ sig.drop (34 + S.length) = (ht :: 0x21 :: pub).take (30 - S.length) := by
  obtain ⟨R, S, dR, dS, lR, lS, hes⟩ := C24_encode_canonical sig ht hl hr hs
  have LR := der_loose (by simp; omega) dR lR
  have LS := der_loose (by simp; omega) dS lS
  have bR : word R = sig.take 32 := by rw [← intBody_word lR]; exact intBody_der _ _ (by simp; omega) dR lR
  have bS : word S = sig.drop 32 := by rw [← intBody_word lS]; exact intBody_der _ _ (by simp; omega) dS lS
  have hsc : script = UInt8.ofNat ((derSig R S).length + 1) :: derSig R S ++ (ht :: 0x21 :: pub) := by
    unfold encodeSigPub at he
    rw [hes] at he
    simp [hp] at he
    rw [← he]
    simp [push]
  have hshort : R.length < 32 ↔ beNat (sig.take 32) < 2 ^ 247 := by
    constructor
    · intro h
      have := Btc.IsDerInt.lt dR
      have : 2 ^ (8 * R.length - 1) ≤ 2 ^ 247 := Nat.pow_le_pow_right (by omega) (by omega)
      omega
    · intro h
      by_contra hc
      have := Btc.IsDerInt.ge dR (by omega)
      have : 2 ^ 247 ≤ 2 ^ (8 * (R.length - 1) - 1) := Nat.pow_le_pow_right (by omega) (by omega)
      omega
  have main : decodeSigPub script = .ok (sig, pub, ht) ↔ seen R S (ht :: 0x21 :: pub) = ht :: 0x21 :: pub := by
    rw [C25_language]
    constructor
    · rintro ⟨R', S', T', hR', hS', _, hb, _, hq⟩
      rw [hsc] at hb
      simp only [List.cons_append, List.cons.injEq] at hb
      obtain ⟨rfl, rfl, rfl⟩ := der_inj lR lS hR'.1 hS'.1 hb.2
      exact hq
    · intro h
      exact ⟨R, S, _, LR, LS, by simp [hp], hsc, by rw [bR, bS, List.take_append_drop], h⟩
  rw [main, ← hshort]
  unfold seen
  by_cases c : R.length < 32
  · rw [if_pos c]; exact ⟨fun _ => .inl c, fun _ => rfl⟩
  rw [if_neg c, bS, List.drop_drop]
  have key : sig.drop (32 + (S.length + 2)) ++ (ht :: 0x21 :: pub).drop (30 - S.length) = ht :: 0x21 :: pub ↔
      sig.drop (34 + S.length) = (ht :: 0x21 :: pub).take (30 - S.length) := by
    rw [show 32 + (S.length + 2) = 34 + S.length by omega]
    constructor
    · intro h
      have e := (List.take_append_drop (30 - S.length) (ht :: 0x21 :: pub)).symm
      exact (List.append_inj (h.trans e) (by simp [hl, hp]; omega)).1
    · intro h
      rw [h, List.take_append_drop]
  rw [key]
  constructor
  · exact fun h => .inr ⟨S, dS, h⟩
  · rintro (h | ⟨S', dS', h⟩)
    · exact absurd h c
    · rw [Btc.IsDerInt.unique dS' dS] at h; exact h

/-- C25, the signature of one signer (as in multisignature scripts), exactly: it is read if and only if it is a push of a DER sequence of two accepted integers and one more byte, with all lengths right. The
type is that byte, unless r has at least 32 bytes and s exactly 29 (then the last byte of s is read for it). -/
theorem C25_signature (b sig : Bytes) (ht : UInt8) : (∃ m, decodeSig b b.length = .ok (sig, ht, m)) ↔
    ∃ R S t, LooseInt R ∧ LooseInt S ∧ b = push (derSig R S ++ [t]) ∧ sig = word R ++ word S ∧
      if 32 ≤ R.length ∧ S.length = 29 then S.getLast? = some ht else ht = t := by
  have kind : ∀ (l rs : UInt8) (R S : Bytes) (t : UInt8), S.length ≤ 33 →
      ((memAfter [l, 0x30, rs, 0x02, UInt8.ofNat R.length] R S [t])[7 + R.length + S.length]? = some ht ↔
        if 32 ≤ R.length ∧ S.length = 29 then S.getLast? = some ht else ht = t) := by
    intro l rs R S t lS
    generalize hhd : [l, 0x30, rs, 0x02, UInt8.ofNat R.length] = hd
    have hdl : hd.length = 5 := by rw [← hhd]; rfl
    by_cases c : R.length < 32 ∨ S.length < 29
    · rw [if_neg (by omega)]
      have : memAfter hd R S [t] = hd ++ R ++ (0x02 :: UInt8.ofNat S.length :: (S ++ [t])) := by
        unfold memAfter
        dsimp only
        rw [if_pos]
        rcases c with h | h
        · exact .inl h
        · right; simp; omega
      rw [this, show hd ++ R ++ (0x02 :: UInt8.ofNat S.length :: (S ++ [t])) = (hd ++ R ++ [0x02, UInt8.ofNat S.length] ++ S) ++ [t] by simp]
      rw [show 7 + R.length + S.length = (hd ++ R ++ [0x02, UInt8.ofNat S.length] ++ S).length by simp; omega, List.getElem?_concat_length, Option.some.injEq]
      exact eq_comm
    · simp only [not_or, Nat.not_lt] at c
      have hd' := memAfter_drop hd R S [t] lS (by simp; omega)
      have e : (memAfter hd R S [t])[7 + R.length + S.length]? = (seen R S [t])[0]? := by
        rw [← hd', List.getElem?_drop]
        congr 1
        omega
      rw [e]
      unfold seen
      rw [if_neg (by omega)]
      by_cases c2 : S.length = 29
      · rw [if_pos ⟨c.1, c2⟩, c2]
        unfold word
        rw [c2]
        rw [show 29 - 32 = 0 from rfl, List.drop_zero, List.drop_append, List.length_replicate, show 29 + 2 - (32 - 29) = 28 from rfl, List.drop_eq_nil_of_le (by simp), List.nil_append]
        rw [show List.drop (30 - 29) [t] = [] from rfl, List.append_nil, List.getElem?_drop, List.getLast?_eq_getElem?, c2]
      · rw [if_neg (by omega), List.drop_eq_nil_of_le (by rw [word_length lS]; omega), show 30 - S.length = 0 by omega]
        simp [eq_comm]
  constructor
  · rintro ⟨m, h⟩
    unfold decodeSig at h
    by_cases c0 : b.length = 0
    · rw [if_pos c0] at h; cases h
    rw [if_neg c0] at h
    obtain ⟨sl, h0, h⟩ := Res.bind_eq_ok.mp h
    by_cases c1 : sl.toNat + 1 ≠ b.length
    · rw [if_pos c1] at h; cases h
    rw [if_neg c1] at h
    obtain ⟨⟨rs, rl, s, sg, m', i⟩, h1, h⟩ := Res.bind_eq_ok.mp h
    dsimp only at h
    obtain ⟨t', h2, h⟩ := Res.bind_eq_ok.mp h
    by_cases c2 : rl + s + 4 ≠ rs ∨ rs + 3 ≠ sl
    · rw [if_pos c2] at h; cases h
    rw [if_neg c2] at h
    cases h
    obtain ⟨l, R, S, tail, LR, LS, e1, e2, hb, hsig, hi, hlim, hm⟩ := readSig_loose h1
    have lR := LR.1
    have lS := LS.1
    obtain ⟨k1, k3⟩ := at'_ok h2
    have hl : l = sl := by rw [hb] at h0; exact Res.ok.inj h0
    subst hl
    simp only [not_or, not_not] at c2
    obtain ⟨d1, d2⟩ := c2
    subst e1 e2
    have n1 : rs = UInt8.ofNat (R.length + S.length + 4) := by
      rw [← d1]; apply UInt8.toNat_inj.mp; simp [UInt8.toNat_add]
    have n2 : l = UInt8.ofNat (R.length + S.length + 7) := by
      rw [← d2, n1]; apply UInt8.toNat_inj.mp; simp [UInt8.toNat_add]
    have htl : tail.length = 1 := by
      have hl1 := congrArg List.length hb
      have hl2 : l.toNat = R.length + S.length + 7 := by rw [n2]; simp; omega
      simp at hl1
      omega
    obtain ⟨t, rfl⟩ : ∃ t, tail = [t] := List.length_eq_one_iff.mp htl
    refine ⟨R, S, t, LR, LS, ?_, by rw [hsig, intBody_word lR, intBody_word lS], ?_⟩
    · rw [hb, n1, n2, ← List.append_nil (push _), push_der]
    · rw [← kind l rs R S t lS, ← hi, ← hm]; exact k3
  · rintro ⟨R, S, t, LR, LS, hb, rfl, hk⟩
    have lR := LR.1
    have lS := LS.1
    rw [← List.append_nil (push _), push_der] at hb
    have hlen : b.length = 8 + R.length + S.length := by rw [hb]; simp; omega
    have rs := readSig_take (UInt8.ofNat (R.length + S.length + 7)) (UInt8.ofNat (R.length + S.length + 4)) R S [t] b.length LR LS (by omega)
    rw [← hb] at rs
    rw [← kind (UInt8.ofNat (R.length + S.length + 7)) (UInt8.ofNat (R.length + S.length + 4)) R S t lS] at hk
    have h0 : index b 0 = .ok (UInt8.ofNat (R.length + S.length + 7)) := by rw [hb]; rfl
    refine ⟨memAfter [UInt8.ofNat (R.length + S.length + 7), 0x30, UInt8.ofNat (R.length + S.length + 4), 0x02, UInt8.ofNat R.length] R S [t], ?_⟩
    unfold decodeSig
    rw [if_neg (by omega), h0, Res.bind_ok, if_neg (by rw [hlen]; simp; omega), rs, Res.bind_ok]
    dsimp only
    unfold at' index
    rw [if_neg (by omega), hk]
    dsimp only
    rw [Res.bind_ok, if_neg, intBody_word lR, intBody_word lS]
    simp only [not_or, not_not]
    constructor
    · apply UInt8.toNat_inj.mp; simp [UInt8.toNat_add]
    · apply UInt8.toNat_inj.mp; simp [UInt8.toNat_add]

/-- A script whose integers have 33 bytes that are not canonical (the first is 7), followed by the type 1 and a key of 33 bytes 9, is read; the first byte of each integer is lost. -/
example : let N : Bytes := 7 :: List.replicate 32 0x80
    decodeSigPub (UInt8.ofNat ((derSig N N).length + 1) :: derSig N N ++ (1 :: 0x21 :: List.replicate 33 9)) = .ok (List.replicate 64 0x80, List.replicate 33 9, 1) := by
  intro N
  exact (C25_language _ _ _ _).mpr ⟨N, N, _, ⟨by simp [N], fun _ => .inr ⟨0x80, rfl, by decide⟩⟩, ⟨by simp [N], fun _ => .inr ⟨0x80, rfl, by decide⟩⟩, by simp, rfl, by decide, by decide⟩

/-- An r of 32 bytes and an s of 29: the type 1 is overwritten by the last byte of s, 3. -/
example : let N : Bytes := List.replicate 32 5
    ∃ m, decodeSig (push (derSig N (List.replicate 28 6 ++ [3]) ++ [1])) (push (derSig N (List.replicate 28 6 ++ [3]) ++ [1])).length = .ok (N ++ (0 :: 0 :: 0 :: List.replicate 28 6 ++ [3]), 3, m) := by
  intro N
  exact (C25_signature _ _ _).mpr ⟨N, List.replicate 28 6 ++ [3], 1, ⟨by simp [N], fun h => by simp [N] at h⟩, ⟨by simp, fun h => by simp at h⟩, rfl, by decide, by decide⟩

/-- A signature with r above 2^247 and s = 1 next to a key of which the first bytes are zero is not read back (the type would have to be 0). -/
example (script : Bytes) (h : encodeSigPub (List.replicate 32 0x70 ++ (List.replicate 31 0 ++ [1])) (2 :: List.replicate 32 9) 1 = .ok script) :
    decodeSigPub script ≠ .ok (List.replicate 32 0x70 ++ (List.replicate 31 0 ++ [1]), 2 :: List.replicate 32 9, 1) := by
  intro hd
  rcases (C24_exact _ _ _ _ (by simp) (by simp) (by decide) (by decide) h).mp hd with h | ⟨S, dS, h⟩
  · revert h; decide
  · have d1 : IsDerInt [1] (beNat ((List.replicate 32 0x70 ++ (List.replicate 31 0 ++ [1]) : Bytes).drop 32)) :=
      ⟨by decide, by decide, by intro x hx; simp at hx; subst hx; decide, by intro y t h; cases h⟩
    rw [Btc.IsDerInt.unique dS d1] at h
    revert h; decide

end Verif
