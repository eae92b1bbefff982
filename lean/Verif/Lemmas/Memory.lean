import Verif.Model.Memory
import Mathlib.Data.List.Basic

/-! Facts about slices in memory. -/

namespace Verif.Mem
open Verif

/-- A slice lies within its array. -/
def Valid (h : Heap) (s : Slice) : Prop := s.len ≤ s.cap ∧ s.off + s.cap ≤ (array h s.arr).length

/-- Two slices such that what lies behind the first, up to its capacity, is no part of the second. -/
def Behind (s t : Slice) : Prop := s.arr = t.arr → s.off + s.cap ≤ t.off ∨ t.off + t.len ≤ s.off + s.len ∨ t.len = 0

theorem read_length {h : Heap} {s : Slice} (v : Valid h s) : (read h s).length = s.len := by
  obtain ⟨v1, v2⟩ := v
  unfold read
  rw [List.length_take, List.length_drop]
  omega

theorem array_append_old {h : Heap} {b : Bytes} {a : Nat} (ha : a < h.length) : array (h ++ [b]) a = array h a := by
  unfold array
  simp [List.getD_eq_getElem?_getD, List.getElem?_append_left ha]

theorem array_append_new {h : Heap} {b : Bytes} : array (h ++ [b]) h.length = b := by
  unfold array
  simp

theorem arr_lt {h : Heap} {s : Slice} (v : Valid h s) (hc : s.cap ≠ 0) : s.arr < h.length := by
  by_contra hn
  obtain ⟨_, v2⟩ := v
  unfold array at v2
  rw [List.getD_eq_getElem?_getD, List.getElem?_eq_none (by omega)] at v2
  simp at v2
  omega

theorem array_write {h : Heap} {a p : Nat} {d : Bytes} (ha : a < h.length) (a' : Nat) :
    array (write h a p d) a' = if a' = a then patch (array h a) p d else array h a' := by
  unfold array write
  simp only [List.getD_eq_getElem?_getD, List.getElem?_modify]
  by_cases e : a = a'
  · subst e
    rw [if_pos rfl, List.getElem?_eq_getElem ha]
    simp
  · rw [if_neg (Ne.symm e)]
    simp [e]

@[simp] theorem write_length {h : Heap} {a p : Nat} {d : Bytes} : (write h a p d).length = h.length := by
  unfold write; simp

theorem patch_length {b d : Bytes} {p : Nat} (h : p + d.length ≤ b.length) : (patch b p d).length = b.length := by
  unfold patch
  simp only [List.length_append, List.length_take, List.length_drop]
  omega

/-- Bytes outside the written range stay. -/
theorem patch_window {b d : Bytes} {p i n : Nat} (h : p + d.length ≤ b.length) (hw : i + n ≤ p ∨ p + d.length ≤ i) :
    ((patch b p d).drop i).take n = (b.drop i).take n := by
  unfold patch
  rcases hw with hw | hw
  · rw [List.append_assoc, List.drop_append_of_le_length (by simp; omega), List.take_append_of_le_length (by simp; omega), List.drop_take, List.take_take,
      Nat.min_eq_left (by omega)]
  · rw [List.drop_append]
    have hl : (b.take p ++ d).length = p + d.length := by
      rw [List.length_append, List.length_take]; omega
    rw [hl, List.drop_eq_nil_of_le (by omega), List.nil_append, List.drop_drop]
    congr 2
    omega

/-- The written bytes. -/
theorem patch_self {b d : Bytes} {p : Nat} (h : p ≤ b.length) : ((patch b p d).drop p).take d.length = d := by
  unfold patch
  rw [List.append_assoc, List.drop_append]
  have hl : (b.take p).length = p := by rw [List.length_take]; omega
  rw [hl, List.drop_eq_nil_of_le (by omega)]
  simp

/-- The window that begins `k` before the written range and ends with it. -/
theorem patch_prefix {b d : Bytes} {p o : Nat} (h : p + d.length ≤ b.length) (ho : o ≤ p) :
    ((patch b p d).drop o).take (p - o + d.length) = (b.drop o).take (p - o) ++ d := by
  unfold patch
  rw [List.append_assoc, List.drop_append_of_le_length (by simp; omega), List.take_append]
  have hl : ((b.take p).drop o).length = p - o := by simp; omega
  rw [hl, List.take_of_length_le (by omega), Nat.add_sub_cancel_left, List.take_append_of_le_length (Nat.le_refl _), List.take_length, List.drop_take]

theorem read_alloc {h : Heap} {b : Bytes} : read (alloc h b).2 (alloc h b).1 = b := by
  unfold read alloc
  simp only
  rw [array_append_new]
  simp

theorem valid_alloc {h : Heap} {b : Bytes} : Valid (alloc h b).2 (alloc h b).1 := by
  unfold alloc Valid
  simp [array_append_new]

theorem read_grow {h : Heap} {b : Bytes} {s : Slice} (hs : s.arr < h.length) : read (h ++ [b]) s = read h s := by
  unfold read
  rw [array_append_old hs]

/-- What `append` returns. -/
theorem read_append {grow : Nat → Nat → Nat} {h : Heap} {s : Slice} {d : Bytes} (v : Valid h s) (ha : s.arr < h.length) :
    read (append grow h s d).2 (append grow h s d).1 = read h s ++ d := by
  have hl := read_length v
  obtain ⟨v1, v2⟩ := v
  unfold append
  split
  · rename_i hc
    unfold read
    simp only
    rw [array_write ha, if_pos rfl]
    have := patch_prefix (b := array h s.arr) (d := d) (p := s.off + s.len) (o := s.off) (by omega) (by omega)
    rw [Nat.add_sub_cancel_left] at this
    exact this
  · unfold read at hl ⊢
    simp only
    rw [array_append_new]
    rw [List.drop_zero, List.take_append_of_le_length (by rw [List.length_append, hl]; exact Nat.le_refl _)]
    rw [List.take_of_length_le (by rw [List.length_append, hl]; exact Nat.le_refl _)]

theorem valid_append {grow : Nat → Nat → Nat} {h : Heap} {s : Slice} {d : Bytes} (v : Valid h s) (ha : s.arr < h.length) :
    Valid (append grow h s d).2 (append grow h s d).1 ∧ (append grow h s d).1.arr < (append grow h s d).2.length := by
  have hl := read_length v
  obtain ⟨v1, v2⟩ := v
  unfold append
  split
  · rename_i hc
    refine ⟨⟨hc, ?_⟩, by simpa using ha⟩
    simp only
    rw [array_write ha, if_pos rfl, patch_length (by omega)]
    exact v2
  · refine ⟨⟨Nat.le_max_right _ _, ?_⟩, by simp⟩
    simp only
    rw [array_append_new]
    simp only [List.length_append, hl, List.length_replicate]
    omega

/-- Other slices keep their bytes under `append` if they do not reach into the spare capacity. -/
theorem read_append_other {grow : Nat → Nat → Nat} {h : Heap} {s t : Slice} {d : Bytes} (v : Valid h s) (hb : Behind s t) (ht : t.arr < h.length) :
    read (append grow h s d).2 t = read h t := by
  obtain ⟨v1, v2⟩ := v
  unfold append
  split
  · rename_i hc
    by_cases h0 : s.arr < h.length
    · unfold read
      simp only
      rw [array_write h0]
      split
      · rename_i e
        rw [e]
        rcases hb e.symm with hb | hb | hb
        · exact patch_window (by omega) (by omega)
        · exact patch_window (by omega) (by omega)
        · rw [hb]; simp
      · rfl
    · unfold write
      rw [List.modify_eq_self (by omega)]
  · exact read_grow ht

/-- `append` keeps validity. -/
theorem valid_append_other {grow : Nat → Nat → Nat} {h : Heap} {s t : Slice} {d : Bytes} (v : Valid h s) (vt : Valid h t) (ht : t.arr < h.length) :
    Valid (append grow h s d).2 t := by
  obtain ⟨v1, v2⟩ := v
  unfold append
  split
  · rename_i hc
    refine ⟨vt.1, ?_⟩
    by_cases h0 : s.arr < h.length
    · simp only
      rw [array_write h0]
      split
      · rename_i e
        rw [patch_length (by omega), ← e]
        exact vt.2
      · exact vt.2
    · simp only
      unfold write
      rw [List.modify_eq_self (by omega)]
      exact vt.2
  · refine ⟨vt.1, ?_⟩
    simp only
    rw [array_append_old ht]
    exact vt.2

theorem append_length {grow : Nat → Nat → Nat} {h : Heap} {s : Slice} {d : Bytes} : h.length ≤ (append grow h s d).2.length := by
  unfold append
  split <;> simp

end Verif.Mem
