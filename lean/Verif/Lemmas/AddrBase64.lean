import Verif.Model.AddrBase64
import Verif.Spec.AddrBase64

/-! How the decoder of `addressEncoder/base64.go` walks over a text. -/

namespace Verif.AddrBase64
open Verif Verif.Spec

/-- What the decoding table of a proper alphabet satisfies. -/
structure Table (m : UInt8 → UInt8) : Prop where
  pad : m 0x3d = 0xff
  lf : m 0x0a = 0xff
  cr : m 0x0d = 0xff
  small : ∀ c, m c ≠ 0xff → (m c).toNat < 64

/-- The value of a quantum. -/
def val4 (a b c d : Nat) : Nat := a * 262144 + b * 4096 + c * 64 + d

/-- A text without line breaks, read four characters at a time. -/
def dec (m : UInt8 → UInt8) : Bytes → Option Bytes
  | a :: b :: c :: d :: t =>
    if m a = 0xff ∨ m b = 0xff then none
    else if m c = 0xff then
      if c = 0x3d ∧ d = 0x3d ∧ t = [] then some ((beBytes 3 (val4 (m a).toNat (m b).toNat 0 0)).take 1) else none
    else if m d = 0xff then
      if d = 0x3d ∧ t = [] then some ((beBytes 3 (val4 (m a).toNat (m b).toNat (m c).toNat 0)).take 2) else none
    else (dec m t).map (fun s => beBytes 3 (val4 (m a).toNat (m b).toNat (m c).toNat (m d).toNat) ++ s)
  | [] => some []
  | [_] => none
  | [_, _] => none
  | [_, _, _] => none

theorem noBreaks_nil : noBreaks [] = [] := rfl

theorem noBreaks_skip (r : Bytes) : noBreaks (skipNl r) = noBreaks r := by
  induction r with
  | nil => rfl
  | cons c r ih =>
    unfold skipNl
    split
    · rename_i h
      rw [ih]
      rcases h with rfl | rfl <;> rfl
    · rfl

theorem skipNl_length (r : Bytes) : (skipNl r).length ≤ r.length := by
  induction r with
  | nil => simp [skipNl]
  | cons c r ih =>
    unfold skipNl
    split
    · simp; omega
    · simp

theorem skipNl_head {r : Bytes} {c : UInt8} {t : Bytes} (h : skipNl r = c :: t) : c ≠ 0x0a ∧ c ≠ 0x0d := by
  induction r with
  | nil => simp [skipNl] at h
  | cons x r ih =>
    unfold skipNl at h
    split at h
    · exact ih h
    · rename_i hx
      simp only [List.cons.injEq] at h
      obtain ⟨rfl, _⟩ := h
      exact not_or.mp hx

theorem noBreaks_cons {c : UInt8} (t : Bytes) (h : c ≠ 0x0a ∧ c ≠ 0x0d) : noBreaks (c :: t) = c :: noBreaks t := by
  unfold noBreaks
  rw [List.filter_cons_of_pos]
  simp [h.1, h.2]

theorem noBreaks_of_skip {r : Bytes} {c : UInt8} {t : Bytes} (h : skipNl r = c :: t) : noBreaks r = c :: noBreaks t := by
  rw [← noBreaks_skip, h, noBreaks_cons _ (skipNl_head h)]

theorem noBreaks_of_skip_nil {r : Bytes} (h : skipNl r = []) : noBreaks r = [] := by
  rw [← noBreaks_skip, h, noBreaks_nil]

theorem noBreaks_length (r : Bytes) : (noBreaks r).length ≤ r.length := List.length_filter_le ..

theorem quantum_skip (e : Encoding) (hm : Table e.decodeMap) (total : Nat) (r : Bytes) (dbuf : List Nat) (hd : dbuf.length < 4) :
    quantum e total r dbuf = quantum e total (skipNl r) dbuf := by
  induction r with
  | nil => rfl
  | cons c r ih =>
    unfold skipNl
    split
    · rename_i h
      rw [quantum, if_neg (by omega), if_neg, if_pos h, ih]
      rcases h with rfl | rfl
      · simp [hm.lf]
      · simp [hm.cr]
    · rfl

/-- A quantum ends in one of these ways. -/
inductive Step (m : UInt8 → UInt8) (rest : Bytes) : Quantum → Prop
  | nothing (h : noBreaks rest = []) : Step m rest (.ret [] none)
  | bad (r : Bytes) (p : Nat) (h : dec m (noBreaks rest) = none) : Step m rest (.ret r (some p))
  | garbage (r : Bytes) (ds : List Nat) (p : Nat) (h : dec m (noBreaks rest) = none) (hl : 4 ≤ (noBreaks rest).length) :
      Step m rest (.conv r ds (some p))
  | good (r : Bytes) (ds : List Nat) (hl : 4 + (noBreaks r).length = (noBreaks rest).length) (hr : r.length < rest.length)
      (h2 : 2 ≤ ds.length) (h4 : ds.length ≤ 4)
      (h : dec m (noBreaks rest) = (dec m (noBreaks r)).map
        (fun s => (beBytes 3 (val4 (ds.getD 0 0) (ds.getD 1 0) (ds.getD 2 0) (ds.getD 3 0))).take (ds.length - 1) ++ s)) :
      Step m rest (.conv r ds none)

theorem step (e : Encoding) (hm : Table e.decodeMap) (total : Nat) (rest : Bytes) :
    Step e.decodeMap rest (quantum e total rest []) := by
  rw [quantum_skip e hm total rest [] (by simp)]
  rcases h1 : skipNl rest with _ | ⟨a, r1⟩
  · exact .nothing (noBreaks_of_skip_nil h1)
  have n1 := noBreaks_of_skip h1
  have l1 := skipNl_length rest
  rw [h1] at l1
  have a1 := skipNl_head h1
  rw [quantum, if_neg (by simp)]
  by_cases da : e.decodeMap a = 0xff
  · rw [if_neg (by simpa using da), if_neg (not_or.mpr a1)]
    have hbad : dec e.decodeMap (noBreaks rest) = none := by
      rw [n1]; rcases noBreaks r1 with _ | ⟨_, _ | ⟨_, _ | ⟨_, _⟩⟩⟩ <;> simp [dec, da]
    split
    · exact .bad _ _ hbad
    · rw [if_pos (by simp)]; exact .bad _ _ hbad
  rw [if_pos da, quantum_skip e hm total r1 _ (by simp)]
  rcases h2 : skipNl r1 with _ | ⟨b, r2⟩
  · simp only [quantum]
    refine .bad _ _ ?_
    rw [n1, noBreaks_of_skip_nil h2]; rfl
  have n2 := noBreaks_of_skip h2
  have l2 := skipNl_length r1
  rw [h2] at l2
  have a2 := skipNl_head h2
  rw [quantum, if_neg (by simp)]
  by_cases db : e.decodeMap b = 0xff
  · rw [if_neg (by simpa using db), if_neg (not_or.mpr a2)]
    have hbad : dec e.decodeMap (noBreaks rest) = none := by
      rw [n1, n2]; rcases noBreaks r2 with _ | ⟨_, _ | ⟨_, _⟩⟩ <;> simp [dec, db]
    split
    · exact .bad _ _ hbad
    · rw [if_pos (by simp)]; exact .bad _ _ hbad
  rw [if_pos db, quantum_skip e hm total r2 _ (by simp)]
  rcases h3 : skipNl r2 with _ | ⟨c, r3⟩
  · simp only [quantum]
    refine .bad _ _ ?_
    rw [n1, n2, noBreaks_of_skip_nil h3]; rfl
  have n3 := noBreaks_of_skip h3
  have l3 := skipNl_length r2
  rw [h3] at l3
  have a3 := skipNl_head h3
  rw [quantum, if_neg (by simp)]
  by_cases dc : e.decodeMap c = 0xff
  · rw [if_neg (by simpa using dc), if_neg (not_or.mpr a3)]
    by_cases hc : c = 0x3d
    · rw [if_neg (by simpa using hc), if_neg (by simp), if_pos (by simp)]
      rcases h4 : skipNl r3 with _ | ⟨d, r4⟩
      · refine .bad _ _ ?_
        rw [n1, n2, n3, noBreaks_of_skip_nil h4]; rfl
      have n4 := noBreaks_of_skip h4
      have l4 := skipNl_length r3
      rw [h4] at l4
      simp only
      by_cases hd : d = 0x3d
      · rw [if_neg (by simpa using hd)]
        unfold padded
        rcases h5 : skipNl r4 with _ | ⟨x, r5⟩
        · have n5 := noBreaks_of_skip_nil h5
          simp only [reduceIte]
          refine .good _ _ ?_ ?_ (by simp) (by simp) ?_
          · rw [n1, n2, n3, n4, n5]; rfl
          · simp at l1; simp; omega
          · rw [n1, n2, n3, n4, n5]
            simp [dec, da, db, hc, hd, hm.pad, noBreaks_nil]
        · have n5 := noBreaks_of_skip h5
          simp only [reduceCtorEq, reduceIte]
          refine .garbage _ _ _ ?_ ?_
          · rw [n1, n2, n3, n4, n5]; simp [dec, da, db, dc]
          · rw [n1, n2, n3, n4]; simp
      · rw [if_pos hd]
        refine .bad _ _ ?_
        rw [n1, n2, n3, n4]; simp [dec, da, db, dc, hd]
    · rw [if_pos hc]
      refine .bad _ _ ?_
      rw [n1, n2, n3]; rcases noBreaks r3 with _ | ⟨_, _⟩ <;> simp [dec, da, db, dc, hc]
  rw [if_pos dc, quantum_skip e hm total r3 _ (by simp)]
  rcases h4 : skipNl r3 with _ | ⟨d, r4⟩
  · simp only [quantum]
    refine .bad _ _ ?_
    rw [n1, n2, n3, noBreaks_of_skip_nil h4]; rfl
  have n4 := noBreaks_of_skip h4
  have l4 := skipNl_length r3
  rw [h4] at l4
  have a4 := skipNl_head h4
  rw [quantum, if_neg (by simp)]
  by_cases dd : e.decodeMap d = 0xff
  · rw [if_neg (by simpa using dd), if_neg (not_or.mpr a4)]
    by_cases hd : d = 0x3d
    · rw [if_neg (by simpa using hd), if_neg (by simp), if_neg (by simp)]
      unfold padded
      rcases h5 : skipNl r4 with _ | ⟨x, r5⟩
      · have n5 := noBreaks_of_skip_nil h5
        simp only [reduceIte]
        refine .good _ _ ?_ ?_ (by simp) (by simp) ?_
        · rw [n1, n2, n3, n4, n5]; rfl
        · simp at l1; simp; omega
        · rw [n1, n2, n3, n4, n5]
          simp [dec, da, db, dc, hd, hm.pad, noBreaks_nil]
      · have n5 := noBreaks_of_skip h5
        simp only [reduceCtorEq, reduceIte]
        refine .garbage _ _ _ ?_ ?_
        · rw [n1, n2, n3, n4, n5]; simp [dec, da, db, dc, dd]
        · rw [n1, n2, n3, n4]; simp
    · rw [if_pos hd]
      refine .bad _ _ ?_
      rw [n1, n2, n3, n4]; simp [dec, da, db, dc, dd, hd]
  rw [if_pos dd]
  have hq : quantum e total r4 ([] ++ [(e.decodeMap a).toNat] ++ [(e.decodeMap b).toNat] ++ [(e.decodeMap c).toNat] ++ [(e.decodeMap d).toNat])
      = .conv r4 [(e.decodeMap a).toNat, (e.decodeMap b).toNat, (e.decodeMap c).toNat, (e.decodeMap d).toNat] none := by
    rcases r4 with _ | ⟨_, _⟩ <;> simp [quantum]
  rw [hq]
  refine .good _ _ ?_ ?_ (by simp) (by simp) ?_
  · rw [n1, n2, n3, n4]; simp; omega
  · simp at l1 l2 l3 l4; omega
  · rw [n1, n2, n3, n4]
    simp [dec, da, db, dc, dd, beBytes, leBytes]

theorem putAt_take (dst : Bytes) (n : Nat) (bs : Bytes) (k : Nat) (hn : n ≤ dst.length) (hk : k ≤ bs.length) :
    (putAt dst n bs).take (n + k) = dst.take n ++ bs.take k := by
  unfold putAt
  rw [List.append_assoc, List.take_append, List.take_append]
  simp only [List.length_take, Nat.min_eq_left hn]
  rw [List.take_of_length_le (by simp; omega), Nat.add_sub_cancel_left, Nat.sub_eq_zero_of_le hk]
  simp

theorem putAt_length (dst : Bytes) (n : Nat) (bs : Bytes) (h : n + bs.length ≤ dst.length) : (putAt dst n bs).length = dst.length := by
  unfold putAt
  simp; omega

/-- What the loops are to return. -/
def Good (m : UInt8 → UInt8) (dst : Bytes) (n : Nat) (rest : Bytes) (res : Res Out) : Prop :=
  ∃ o, res = .ok o ∧
    match dec m (noBreaks rest) with
    | some b => o.err = none ∧ o.n = n + b.length ∧ o.dst.take o.n = dst.take n ++ b
    | none => o.err ≠ none

theorem Good.more {m : UInt8 → UInt8} {dst dst' : Bytes} {n : Nat} {rest r bs : Bytes} {res : Res Out}
    (h : dec m (noBreaks rest) = (dec m (noBreaks r)).map (fun s => bs ++ s)) (hd : dst'.take (n + bs.length) = dst.take n ++ bs)
    (hg : Good m dst' (n + bs.length) r res) : Good m dst n rest res := by
  obtain ⟨o, ho, hg⟩ := hg
  refine ⟨o, ho, ?_⟩
  rw [h]
  rcases hr : dec m (noBreaks r) with _ | b
  · rw [hr] at hg; exact hg
  · rw [hr] at hg
    obtain ⟨h1, h2, h3⟩ := hg
    refine ⟨h1, ?_, ?_⟩
    · rw [h2]; simp; omega
    · rw [h3, hd, List.append_assoc]

theorem beBytes_length' (k v : Nat) : (beBytes k v).length = k := by
  unfold beBytes
  rw [List.length_reverse]
  induction k generalizing v with
  | zero => rfl
  | succ k ih => simp [leBytes, ih]

/-- One quantum: an error exactly when the rest of the text is not well-formed, or some bytes are written. -/
theorem decodeQuantum_spec (e : Encoding) (hm : Table e.decodeMap) (total : Nat) (dst : Bytes) (n : Nat) (rest : Bytes)
    (hroom : n + 3 * ((noBreaks rest).length / 4) ≤ dst.length) (hne : rest ≠ []) :
    ∃ r o, decodeQuantum e total dst n rest = .ok (r, o) ∧
      ((o.err ≠ none ∧ dec e.decodeMap (noBreaks rest) = none) ∨
       (o.err = none ∧ o.dst.length = dst.length ∧ r.length < rest.length ∧ ∃ bs, o.n = n + bs.length ∧ o.dst.take o.n = dst.take n ++ bs ∧
          dec e.decodeMap (noBreaks rest) = (dec e.decodeMap (noBreaks r)).map (fun s => bs ++ s) ∧
          o.n + 3 * ((noBreaks r).length / 4) ≤ dst.length)) := by
  unfold decodeQuantum
  have hs := step e hm total rest
  rcases hq : quantum e total rest [] with ⟨r, err⟩ | ⟨r, ds, err⟩ <;> rw [hq] at hs
  · cases hs with
    | nothing h =>
      refine ⟨_, _, rfl, .inr ⟨rfl, rfl, List.length_pos_iff.mpr hne, [], by simp, by simp, ?_, ?_⟩⟩
      · rw [h]; rfl
      · simp [noBreaks_nil]; omega
    | bad _ p h => exact ⟨_, _, rfl, .inl ⟨by simp, h⟩⟩
  · cases hs with
    | garbage _ _ p h hl =>
      simp only
      rw [if_neg (by omega)]
      exact ⟨_, _, rfl, .inl ⟨by simp, h⟩⟩
    | good _ _ hl hr h2 h4 h =>
      simp only
      rw [if_neg (by omega)]
      refine ⟨_, _, rfl, .inr ⟨rfl, ?_, hr, _, ?_, ?_, h, ?_⟩⟩
      · apply putAt_length
        rw [List.length_take, beBytes_length']; omega
      · rw [List.length_take, beBytes_length']; simp only; omega
      · have := putAt_take dst n ((beBytes 3 (val4 (ds.getD 0 0) (ds.getD 1 0) (ds.getD 2 0) (ds.getD 3 0))).take (ds.length - 1))
          (ds.length - 1) (by omega) (by rw [List.length_take, beBytes_length']; omega)
        simp only [val4] at this ⊢
        rw [this, List.take_take, Nat.min_self]
      · simp only
        rw [← hl] at hroom
        omega

theorem loop3_good (e : Encoding) (hm : Table e.decodeMap) (total : Nat) : ∀ (f : Nat) (dst : Bytes) (n : Nat) (rest : Bytes),
    rest.length < f → n + 3 * ((noBreaks rest).length / 4) ≤ dst.length → Good e.decodeMap dst n rest (loop3 e total f dst n rest) := by
  intro f
  induction f with
  | zero => intro _ _ _ h; omega
  | succ f ih =>
    intro dst n rest hf hroom
    unfold loop3
    split
    · rename_i h
      subst h
      exact ⟨_, rfl, by simp [noBreaks_nil, dec]⟩
    · rename_i hne
      obtain ⟨r, o, hd, h⟩ := decodeQuantum_spec e hm total dst n rest hroom hne
      rw [hd]
      show Good _ _ _ _ (if o.err ≠ none then _ else _)
      rcases h with ⟨he, hn⟩ | ⟨he, hlen, hr, bs, hon, htake, hdec, hroom'⟩
      · rw [if_pos he]
        exact ⟨o, rfl, by rw [hn]; exact he⟩
      · rw [if_neg (by simpa using he)]
        rw [hon] at htake hroom' ⊢
        exact .more hdec htake (ih _ _ _ (by omega) (by omega))

/-- Characters that are all in the alphabet. -/
theorem digits_some {e : Encoding} (hm : Table e.decodeMap) : ∀ (k : Nat) (src : Bytes) (ds : List Nat), digits e k src = some ds →
    ∃ cs t, src = cs ++ t ∧ cs.length = k ∧ ds = cs.map (fun c => (e.decodeMap c).toNat) ∧ (∀ c ∈ cs, e.decodeMap c ≠ 0xff) ∧
      noBreaks src = cs ++ noBreaks t := by
  intro k
  induction k with
  | zero => intro src ds h; simp [digits] at h; exact ⟨[], src, by simp [h]⟩
  | succ k ih =>
    intro src ds h
    rcases src with _ | ⟨c, src⟩
    · simp [digits] at h
    · unfold digits at h
      split at h
      · simp at h
      · rename_i hc
        simp only [Option.map_eq_some_iff] at h
        obtain ⟨ds', h', rfl⟩ := h
        obtain ⟨cs, t, rfl, hl, rfl, hall, hnb⟩ := ih src ds' h'
        refine ⟨c :: cs, t, rfl, by simp [hl], rfl, ?_, ?_⟩
        · intro x hx
          rcases List.mem_cons.mp hx with rfl | hx
          · exact hc
          · exact hall x hx
        · rw [noBreaks_cons, hnb]; · rfl
          refine ⟨?_, ?_⟩ <;> rintro rfl
          · exact hc hm.lf
          · exact hc hm.cr

theorem beBytes4_digits (a b c d : Nat) : beBytes 4 (val4 a b c d * 2 ^ 8) = beBytes 3 (val4 a b c d) ++ [0] := by
  have : UInt8.ofNat (val4 a b c d * 256) = 0 := by
    apply UInt8.toNat_inj.mp; simp
  simp [beBytes, leBytes, this]

theorem beBytes8_digits (a b c d a' b' c' d' : Nat) (h1 : a' < 64) (h2 : b' < 64) (h3 : c' < 64) (h4 : d' < 64) :
    beBytes 8 ((val4 a b c d * 16777216 + val4 a' b' c' d') * 65536) = beBytes 3 (val4 a b c d) ++ beBytes 3 (val4 a' b' c' d') ++ [0, 0] := by
  have hlt : val4 a' b' c' d' < 16777216 := by unfold val4; omega
  generalize val4 a b c d = u at *
  generalize val4 a' b' c' d' = v at *
  have e0 : UInt8.ofNat ((u * 16777216 + v) * 65536) = 0 := by
    apply UInt8.toNat_inj.mp; rw [UInt8.toNat_ofNat']; show _ = 0; omega
  have e1 : UInt8.ofNat ((u * 16777216 + v) * 65536 / 256) = 0 := by apply UInt8.toNat_inj.mp; simp; omega
  have e2 : (u * 16777216 + v) * 65536 / 256 / 256 = u * 16777216 + v := by omega
  have e3 : UInt8.ofNat (u * 16777216 + v) = UInt8.ofNat v := by
    apply UInt8.toNat_inj.mp; rw [UInt8.toNat_ofNat', UInt8.toNat_ofNat']; omega
  have e4 : UInt8.ofNat ((u * 16777216 + v) / 256) = UInt8.ofNat (v / 256) := by apply UInt8.toNat_inj.mp; simp; omega
  have e5 : UInt8.ofNat ((u * 16777216 + v) / 256 / 256) = UInt8.ofNat (v / 256 / 256) := by apply UInt8.toNat_inj.mp; simp; omega
  have e6 : (u * 16777216 + v) / 256 / 256 / 256 = u := by omega
  simp only [beBytes, leBytes, e0, e1, e2, e3, e4, e5, e6]
  simp

theorem loop2_good (e : Encoding) (hm : Table e.decodeMap) (total : Nat) : ∀ (f : Nat) (dst : Bytes) (n : Nat) (rest : Bytes),
    rest.length < f → n + 3 * ((noBreaks rest).length / 4) ≤ dst.length → Good e.decodeMap dst n rest (loop2 e total f dst n rest) := by
  intro f
  induction f with
  | zero => intro _ _ _ h; omega
  | succ f ih =>
    intro dst n rest hf hroom
    unfold loop2
    split
    · rename_i hl
      split
      · rename_i dn hdn
        simp only [decode32, Option.map_eq_some_iff] at hdn
        obtain ⟨ds, hds, rfl⟩ := hdn
        obtain ⟨cs, t, rfl, hcl, rfl, hall, hnb⟩ := digits_some hm _ _ _ hds
        match cs, hcl with
        | [a, b, c, d], _ =>
          simp only [List.mem_cons, List.not_mem_nil, or_false, forall_eq_or_imp, forall_eq] at hall
          obtain ⟨ha, hb, hc, hd⟩ := hall
          have hj : joinDigits (List.map (fun c => (e.decodeMap c).toNat) [a, b, c, d])
              = val4 (e.decodeMap a).toNat (e.decodeMap b).toNat (e.decodeMap c).toNat (e.decodeMap d).toNat := by
            simp only [joinDigits, List.map_cons, List.map_nil, List.foldl_cons, List.foldl_nil, val4]
            omega
          rw [hj, beBytes4_digits]
          have hdrop : List.drop 4 ([a, b, c, d] ++ t) = t := rfl
          rw [hdrop]
          rw [hnb] at hroom
          have hroom' : n + 3 + 3 * ((noBreaks t).length / 4) ≤ dst.length := by
            simp at hroom; omega
          refine .more (r := t) (bs := beBytes 3 (val4 (e.decodeMap a).toNat (e.decodeMap b).toNat (e.decodeMap c).toNat (e.decodeMap d).toNat))
            (dst' := putAt dst n (beBytes 3 (val4 (e.decodeMap a).toNat (e.decodeMap b).toNat (e.decodeMap c).toNat (e.decodeMap d).toNat) ++ [0])) ?_ ?_ ?_
          · rw [hnb]; simp [dec, ha, hb, hc, hd]
          · rw [putAt_take _ _ _ _ (by omega) (by simp), List.take_left]
          · rw [beBytes_length']
            simp at hf
            refine ih _ _ _ (by omega) ?_
            rw [putAt_length _ _ _ (by simp [beBytes_length']; omega)]
            exact hroom'
      · have hne : rest ≠ [] := by rintro rfl; simp at hl
        obtain ⟨r, o, hd, h⟩ := decodeQuantum_spec e hm total dst n rest hroom hne
        rw [hd]
        show Good _ _ _ _ (if o.err ≠ none then _ else _)
        rcases h with ⟨he, hn⟩ | ⟨he, hlen, hr, bs, hon, htake, hdec, hroom'⟩
        · rw [if_pos he]
          exact ⟨o, rfl, by rw [hn]; exact he⟩
        · rw [if_neg (by simpa using he)]
          rw [hon] at htake hroom' ⊢
          exact .more hdec htake (ih _ _ _ (by omega) (by omega))
    · exact loop3_good e hm total _ _ _ _ hf hroom

theorem loop1_good (e : Encoding) (hm : Table e.decodeMap) (total : Nat) : ∀ (f : Nat) (dst : Bytes) (n : Nat) (rest : Bytes),
    rest.length < f → n + 3 * ((noBreaks rest).length / 4) ≤ dst.length → Good e.decodeMap dst n rest (loop1 e total f dst n rest) := by
  intro f
  induction f with
  | zero => intro _ _ _ h; omega
  | succ f ih =>
    intro dst n rest hf hroom
    unfold loop1
    split
    · rename_i hl
      split
      · rename_i dn hdn
        simp only [decode64, Option.map_eq_some_iff] at hdn
        obtain ⟨ds, hds, rfl⟩ := hdn
        obtain ⟨cs, t, rfl, hcl, rfl, hall, hnb⟩ := digits_some hm _ _ _ hds
        match cs, hcl with
        | [a, b, c, d, a', b', c', d'], _ =>
          simp only [List.mem_cons, List.not_mem_nil, or_false, forall_eq_or_imp, forall_eq] at hall
          obtain ⟨ha, hb, hc, hd, ha', hb', hc', hd'⟩ := hall
          have hj : joinDigits (List.map (fun c => (e.decodeMap c).toNat) [a, b, c, d, a', b', c', d']) * 2 ^ 16
              = (val4 (e.decodeMap a).toNat (e.decodeMap b).toNat (e.decodeMap c).toNat (e.decodeMap d).toNat * 16777216 +
                val4 (e.decodeMap a').toNat (e.decodeMap b').toNat (e.decodeMap c').toNat (e.decodeMap d').toNat) * 65536 := by
            simp only [joinDigits, List.map_cons, List.map_nil, List.foldl_cons, List.foldl_nil, val4]
            omega
          rw [hj, beBytes8_digits _ _ _ _ _ _ _ _ (hm.small _ ha') (hm.small _ hb') (hm.small _ hc') (hm.small _ hd')]
          have hdrop : List.drop 8 ([a, b, c, d, a', b', c', d'] ++ t) = t := rfl
          rw [hdrop]
          rw [hnb] at hroom
          have hroom' : n + 6 + 3 * ((noBreaks t).length / 4) ≤ dst.length := by
            simp at hroom; omega
          generalize hu : val4 (e.decodeMap a).toNat (e.decodeMap b).toNat (e.decodeMap c).toNat (e.decodeMap d).toNat = u
          generalize hv : val4 (e.decodeMap a').toNat (e.decodeMap b').toNat (e.decodeMap c').toNat (e.decodeMap d').toNat = v
          refine .more (r := t) (bs := beBytes 3 u ++ beBytes 3 v)
            (dst' := putAt dst n (beBytes 3 u ++ beBytes 3 v ++ [0, 0])) ?_ ?_ ?_
          · rw [hnb]; simp [dec, ha, hb, hc, hd, ha', hb', hc', hd', hu, hv, Function.comp_def]
          · rw [putAt_take _ _ _ _ (by omega) (by simp), List.take_left]
          · have hlen : (beBytes 3 u ++ beBytes 3 v).length = 6 := by rw [List.length_append, beBytes_length', beBytes_length']
            rw [hlen]
            simp at hf
            refine ih _ _ _ (by omega) ?_
            rw [putAt_length _ _ _ (by rw [List.length_append, hlen]; simp; omega)]
            exact hroom'
      · have hne : rest ≠ [] := by rintro rfl; simp at hl
        obtain ⟨r, o, hd, h⟩ := decodeQuantum_spec e hm total dst n rest hroom hne
        rw [hd]
        show Good _ _ _ _ (if o.err ≠ none then _ else _)
        rcases h with ⟨he, hn⟩ | ⟨he, hlen, hr, bs, hon, htake, hdec, hroom'⟩
        · rw [if_pos he]
          exact ⟨o, rfl, by rw [hn]; exact he⟩
        · rw [if_neg (by simpa using he)]
          rw [hon] at htake hroom' ⊢
          exact .more hdec htake (ih _ _ _ (by omega) (by omega))
    · exact loop2_good e hm total _ _ _ _ hf hroom

theorem decode_good (e : Encoding) (hm : Table e.decodeMap) (dst src : Bytes) (h : 3 * ((noBreaks src).length / 4) ≤ dst.length) :
    Good e.decodeMap dst 0 src (decode e dst src) := by
  unfold decode
  split
  · rename_i hs; subst hs
    exact ⟨_, rfl, by simp [noBreaks_nil, dec]⟩
  · exact loop1_good e hm _ _ _ _ _ (by omega) (by omega)

end Verif.AddrBase64
