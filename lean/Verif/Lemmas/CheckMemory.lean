import Verif.Model.CheckMemory
import Verif.Lemmas.Memory

/-! Interleaved calls of `EncodeCheck`: the invariant of calls that work on arrays of their own, and a call running alone. -/

namespace Verif.CheckMem
open Verif Verif.Mem

/-- Reserving and writing is `append`. -/
theorem reserve_append (grow : Nat → Nat → Nat) (h : Heap) (s : Slice) (d : Bytes) (v : Valid h s) :
    (reserve grow h s d.length).1 = (append grow h s d).1 ∧
      write (reserve grow h s d.length).2 (reserve grow h s d.length).1.arr ((reserve grow h s d.length).1.off + s.len) d = (append grow h s d).2 := by
  have hl := read_length v
  unfold reserve append
  split
  · exact ⟨rfl, rfl⟩
  · rename_i hc
    refine ⟨rfl, ?_⟩
    simp only
    apply List.ext_getElem?
    intro a
    unfold write
    rw [List.getElem?_modify]
    by_cases e : h.length = a
    · subst e
      simp only [List.getElem?_append_right (Nat.le_refl _), Nat.sub_self, List.getElem?_cons_zero, Option.map_some, if_true, Option.some.injEq,
        Option.map_eq_map]
      unfold patch
      rw [Nat.zero_add, List.take_append_of_le_length (by omega), List.take_of_length_le (by omega), List.drop_append, List.drop_eq_nil_of_le (by omega),
        List.nil_append, List.drop_replicate, hl]
      congr 2
      omega
    · simp only [e, if_false]
      by_cases hlt : a < h.length
      · simp [List.getElem?_append_left hlt]
      · rw [List.getElem?_eq_none (by simp; omega), List.getElem?_eq_none (by simp; omega)]
        rfl

theorem byteAt_read {h : Heap} {s : Slice} {i : Nat} (v : Valid h s) (hi : i < s.len) : (read h s)[i]? = some (byteAt h s i) := by
  obtain ⟨v1, v2⟩ := v
  unfold Mem.read byteAt
  rw [List.getElem?_take, if_pos hi, List.getElem?_drop, List.getD_eq_getElem?_getD, List.getElem?_eq_getElem (by omega)]
  rfl

theorem take_byte {h : Heap} {s : Slice} {i : Nat} (v : Valid h s) (hi : i < s.len) :
    (read h s).take (i + 1) = (read h s).take i ++ [byteAt h s i] := by
  have := byteAt_read v hi
  rw [List.take_add_one, this]
  rfl

/-- The array that a call writes to. -/
def own : Stage → Option Nat
  | .start => none
  | .joining d _ => some d.arr
  | .hashing d _ => some d.arr
  | .sealing d _ _ => some d.arr
  | .encoding d _ => some d.arr
  | .done _ => none

/-- A slice of a new array that begins with the bytes `b` and has room for what the slice says. -/
def Fresh (n : Nat) (h : Heap) (d : Slice) (b : Bytes) : Prop :=
  n ≤ d.arr ∧ d.arr < h.length ∧ d.off = 0 ∧ d.len ≤ d.cap ∧ d.cap ≤ (array h d.arr).length ∧ b.length ≤ d.len ∧ (array h d.arr).take b.length = b

theorem Fresh.read {n : Nat} {h : Heap} {d : Slice} {b : Bytes} (f : Fresh n h d b) (e : b.length = d.len) : read h d = b := by
  obtain ⟨_, _, f3, _, _, _, f7⟩ := f
  unfold Mem.read
  rw [f3, List.drop_zero, ← e, f7]

theorem Fresh.valid {n : Nat} {h : Heap} {d : Slice} {b : Bytes} (f : Fresh n h d b) : Valid h d := by
  obtain ⟨_, _, f3, f4, f5, _, _⟩ := f
  exact ⟨f4, by omega⟩

/-- Writing the next byte. -/
theorem Fresh.write {n : Nat} {h : Heap} {d : Slice} {b : Bytes} (f : Fresh n h d b) (c : UInt8) (hl : b.length < d.len) :
    Fresh n (write h d.arr b.length [c]) d (b ++ [c]) := by
  obtain ⟨f1, f2, f3, f4, f5, f6, f7⟩ := f
  refine ⟨f1, by simpa using f2, f3, f4, ?_, by simp; omega, ?_⟩
  · rw [array_write f2, if_pos rfl, patch_length (by simp; omega)]; exact f5
  · rw [array_write f2, if_pos rfl]
    have := patch_prefix (b := array h d.arr) (d := [c]) (p := b.length) (o := 0) (by simp; omega) (by omega)
    simp only [List.drop_zero, Nat.sub_zero, List.length_cons, List.length_nil] at this
    simp only [List.length_append, List.length_cons, List.length_nil]
    rw [this, f7]

/-- What holds of a call on a prefix without room for the hash. `P` and `Q` are the bytes of prefix and hash. -/
def Good (H : Hashes) (n : Nat) (h : Heap) (P Q : Bytes) : Stage → Prop
  | .start => True
  | .joining d i => i ≤ Q.length ∧ d.len = P.length + Q.length ∧ Fresh n h d (P ++ Q.take i)
  | .hashing d seen => d.len = P.length + Q.length ∧ Fresh n h d (P ++ Q) ∧ seen = (P ++ Q).take seen.length
  | .sealing d sum i => sum = (H.hash .doubleSha256 (P ++ Q)).take 4 ∧ i ≤ sum.length ∧ d.len = P.length + Q.length + sum.length ∧
      Fresh n h d (P ++ Q ++ sum.take i)
  | .encoding d seen => ∃ sum, sum = (H.hash .doubleSha256 (P ++ Q)).take 4 ∧ d.len = P.length + Q.length + sum.length ∧
      Fresh n h d (P ++ Q ++ sum) ∧ seen = (P ++ Q ++ sum).take seen.length
  | .done t => t = Btc.encodeCheck H P Q

/-- Memory in which the array of a call is as before. -/
theorem Good.mono {H : Hashes} {n : Nat} {h h' : Heap} {P Q : Bytes} {st : Stage} (g : Good H n h P Q st)
    (hl : h.length ≤ h'.length) (ho : ∀ a, own st = some a → array h' a = array h a) : Good H n h' P Q st := by
  have fr : ∀ d b, Fresh n h d b → array h' d.arr = array h d.arr → Fresh n h' d b := by
    intro d b ⟨f1, f2, f3, f4, f5, f6, f7⟩ e
    exact ⟨f1, by omega, f3, f4, by rw [e]; exact f5, f6, by rw [e]; exact f7⟩
  cases st with
  | start => trivial
  | joining d i => exact ⟨g.1, g.2.1, fr _ _ g.2.2 (ho _ rfl)⟩
  | hashing d seen => exact ⟨g.1, fr _ _ g.2.1 (ho _ rfl), g.2.2⟩
  | sealing d sum i => exact ⟨g.1, g.2.1, g.2.2.1, fr _ _ g.2.2.2 (ho _ rfl)⟩
  | encoding d seen =>
    obtain ⟨sum, g1, g2, g3, g4⟩ := g
    exact ⟨sum, g1, g2, fr _ _ g3 (ho _ rfl), g4⟩
  | done t => exact g

/-- One step of such a call: it stays good, and memory changes in its own array only, which is then a new one or the one it had. -/
theorem step_good {H : Hashes} {grow : Nat → Nat → Nat} {h₀ h : Heap} {pre hash : Slice} {st : Stage}
    (hn : h₀.length ≤ h.length) (old : ∀ a < h₀.length, array h a = array h₀ a)
    (vp : Valid h₀ pre) (ap : pre.arr < h₀.length) (vq : Valid h₀ hash) (aq : hash.arr < h₀.length) (room : pre.cap < pre.len + hash.len)
    (g : Good H h₀.length h (read h₀ pre) (read h₀ hash) st) :
    Good H h₀.length (step H grow (h, ⟨pre, hash, st⟩)).1 (read h₀ pre) (read h₀ hash) (step H grow (h, ⟨pre, hash, st⟩)).2.stage ∧
      (step H grow (h, ⟨pre, hash, st⟩)).2.pre = pre ∧ (step H grow (h, ⟨pre, hash, st⟩)).2.hash = hash ∧
      h.length ≤ (step H grow (h, ⟨pre, hash, st⟩)).1.length ∧
      (∀ a < h.length, own st ≠ some a → array (step H grow (h, ⟨pre, hash, st⟩)).1 a = array h a) ∧
      (∀ a, own (step H grow (h, ⟨pre, hash, st⟩)).2.stage = some a → h₀.length ≤ a ∧ (own st = some a ∨ h.length ≤ a)) := by
  have lp := read_length vp
  have lq := read_length vq
  have rd : ∀ s : Slice, s.arr < h₀.length → read h s = read h₀ s := by
    intro s hs; unfold Mem.read; rw [old _ hs]
  have vd : ∀ s : Slice, s.arr < h₀.length → Valid h₀ s → Valid h s := by
    intro s hs v; unfold Valid; rw [old _ hs]; exact v
  cases st with
  | start =>
    simp only [step, reserve]
    rw [if_neg (by omega)]
    simp only
    refine ⟨⟨Nat.zero_le _, by simp only; omega, ?_⟩, by simp, by simp, by simp, ?_, ?_⟩
    · refine ⟨hn, by simp, rfl, Nat.le_max_right _ _, ?_, by simp [lp], ?_⟩
      · simp only [array_append_new, List.length_append, List.length_replicate]
        rw [rd _ ap, lp]; omega
      · simp only [array_append_new, List.take_zero, List.append_nil]
        rw [rd _ ap, List.take_left]
    · intro a ha _; exact array_append_old ha
    · intro a e; simp only [own, Option.some.injEq] at e; subst e; exact ⟨hn, Or.inr (Nat.le_refl _)⟩
  | joining d i =>
    obtain ⟨g1, g2, g3⟩ := g
    have own_d : ∀ a, (some d.arr : Option Nat) = some a → h₀.length ≤ a ∧ (own (.joining d i) = some a ∨ h.length ≤ a) := by
      intro a e; simp only [Option.some.injEq] at e; subst e; exact ⟨g3.1, Or.inl rfl⟩
    simp only [step]
    split
    · rename_i hi
      have tb := take_byte (vd _ aq vq) hi
      rw [rd _ aq] at tb
      have hb : (read h₀ pre ++ (read h₀ hash).take i).length = pre.len + i := by simp [lp, lq]; omega
      refine ⟨⟨by omega, g2, ?_⟩, rfl, rfl, by simp, ?_, own_d⟩
      · have := g3.write (byteAt h hash i) (by rw [hb]; omega)
        rw [hb] at this
        rw [tb, ← List.append_assoc, g3.2.2.1, Nat.zero_add]
        exact this
      · intro a ha e
        simp only [own, ne_eq, Option.some.injEq] at e
        rw [array_write g3.2.1, if_neg (fun e' => e e'.symm)]
    · have hi : i = (read h₀ hash).length := by omega
      refine ⟨⟨g2, ?_, rfl⟩, rfl, rfl, Nat.le_refl _, fun _ _ _ => rfl, own_d⟩
      rw [hi, List.take_length] at g3
      exact g3
  | hashing d seen =>
    obtain ⟨g1, g2, g3⟩ := g
    have rdd : read h d = read h₀ pre ++ read h₀ hash := g2.read (by simp; omega)
    simp only [step]
    split
    · rename_i hi
      have tb := take_byte g2.valid hi
      rw [rdd, ← g3] at tb
      refine ⟨⟨g1, g2, ?_⟩, rfl, rfl, Nat.le_refl _, fun _ _ _ => rfl, ?_⟩
      · rw [List.length_append, List.length_cons, List.length_nil, Nat.zero_add, tb]
      · intro a e; exact ⟨by simp only [own, Option.some.injEq] at e; subst e; exact g2.1, Or.inl e⟩
    · rename_i hi
      have hs : seen = read h₀ pre ++ read h₀ hash := by rw [g3]; exact List.take_of_length_le (by simp; omega)
      rw [hs]
      generalize hsum : (H.hash .doubleSha256 (read h₀ pre ++ read h₀ hash)).take 4 = sum
      unfold reserve
      split
      · rename_i hc
        refine ⟨⟨hsum.symm, Nat.zero_le _, by simp only; omega, ?_⟩, rfl, rfl, Nat.le_refl _, fun _ _ _ => rfl, ?_⟩
        · obtain ⟨f1, f2, f3, f4, f5, f6, f7⟩ := g2
          refine ⟨f1, f2, f3, hc, f5, ?_, ?_⟩
          · simp only [List.take_zero, List.append_nil]; omega
          · simp only [List.take_zero, List.append_nil]; exact f7
        · intro a e; exact ⟨by simp only [own, Option.some.injEq] at e; subst e; exact g2.1, Or.inl e⟩
      · rename_i hc
        simp only
        refine ⟨⟨hsum.symm, Nat.zero_le _, by simp only; omega, ?_⟩, by simp, by simp, by simp, ?_, ?_⟩
        · refine ⟨hn, by simp, rfl, Nat.le_max_right _ _, ?_, by simp; omega, ?_⟩
          · simp only [array_append_new, List.length_append, List.length_replicate, rdd]; omega
          · simp only [array_append_new, List.take_zero, List.append_nil, rdd, List.take_left]
        · intro a ha _; exact array_append_old ha
        · intro a e; simp only [own, Option.some.injEq] at e; subst e; exact ⟨hn, Or.inr (Nat.le_refl _)⟩
  | sealing d sum i =>
    obtain ⟨g0, g1, g2, g3⟩ := g
    have own_d : ∀ a, (some d.arr : Option Nat) = some a → h₀.length ≤ a ∧ (own (.sealing d sum i) = some a ∨ h.length ≤ a) := by
      intro a e; simp only [Option.some.injEq] at e; subst e; exact ⟨g3.1, Or.inl rfl⟩
    simp only [step]
    split
    · rename_i hi
      have hb : (read h₀ pre ++ read h₀ hash ++ sum.take i).length = d.len - sum.length + i := by simp; omega
      refine ⟨⟨g0, by omega, g2, ?_⟩, rfl, rfl, by simp, ?_, own_d⟩
      · have := g3.write (sum.getD i 0) (by rw [hb]; omega)
        rw [hb] at this
        rw [List.take_add_one, List.getElem?_eq_getElem hi, ← List.append_assoc, g3.2.2.1, Nat.zero_add]
        rw [List.getD_eq_getElem?_getD, List.getElem?_eq_getElem hi] at this ⊢
        exact this
      · intro a ha e
        simp only [own, ne_eq, Option.some.injEq] at e
        rw [array_write g3.2.1, if_neg (fun e' => e e'.symm)]
    · have hi : i = sum.length := by omega
      refine ⟨⟨sum, g0, g2, ?_, rfl⟩, rfl, rfl, Nat.le_refl _, fun _ _ _ => rfl, own_d⟩
      rw [hi, List.take_length] at g3
      exact g3
  | encoding d seen =>
    obtain ⟨sum, g0, g1, g2, g3⟩ := g
    have rdd : read h d = read h₀ pre ++ read h₀ hash ++ sum := g2.read (by simp; omega)
    simp only [step]
    split
    · rename_i hi
      have tb := take_byte g2.valid hi
      rw [rdd, ← g3] at tb
      refine ⟨⟨sum, g0, g1, g2, ?_⟩, rfl, rfl, Nat.le_refl _, fun _ _ _ => rfl, ?_⟩
      · rw [List.length_append, List.length_cons, List.length_nil, Nat.zero_add, tb]
      · intro a e; exact ⟨by simp only [own, Option.some.injEq] at e; subst e; exact g2.1, Or.inl e⟩
    · rename_i hi
      have hs : seen = read h₀ pre ++ read h₀ hash ++ sum := by rw [g3]; exact List.take_of_length_le (by simp; omega)
      refine ⟨?_, rfl, rfl, Nat.le_refl _, fun _ _ _ => rfl, ?_⟩
      · show Base58.encode _ _ = Btc.encodeCheck _ _ _
        rw [hs, g0]; rfl
      · intro a e; simp [own] at e
  | done t => exact ⟨g, rfl, rfl, Nat.le_refl _, fun _ _ _ => rfl, fun a e => by simp [own, step] at e⟩

/-- The state of calls that all work on arrays of their own. -/
structure Inv (H : Hashes) (h₀ : Heap) (args : List (Slice × Slice)) (s : State) : Prop where
  grown : h₀.length ≤ s.heap.length
  old : ∀ a < h₀.length, array s.heap a = array h₀ a
  args_eq : s.calls.map (fun c => (c.pre, c.hash)) = args
  good : ∀ (i : Nat) (c : Call), s.calls[i]? = some c → Good H h₀.length s.heap (read h₀ c.pre) (read h₀ c.hash) c.stage
  bound : ∀ (i : Nat) (c : Call) (a : Nat), s.calls[i]? = some c → own c.stage = some a → h₀.length ≤ a ∧ a < s.heap.length
  apart : ∀ (i j : Nat) (c e : Call) (a : Nat), i ≠ j → s.calls[i]? = some c → s.calls[j]? = some e → own c.stage = some a → own e.stage ≠ some a

theorem Good.own_lt {H : Hashes} {n : Nat} {h : Heap} {P Q : Bytes} {st : Stage} (g : Good H n h P Q st) {a : Nat}
    (e : own st = some a) : n ≤ a ∧ a < h.length := by
  cases st with
  | start => simp [own] at e
  | joining d i => simp only [own, Option.some.injEq] at e; subst e; exact ⟨g.2.2.1, g.2.2.2.1⟩
  | hashing d seen => simp only [own, Option.some.injEq] at e; subst e; exact ⟨g.2.1.1, g.2.1.2.1⟩
  | sealing d sum i => simp only [own, Option.some.injEq] at e; subst e; exact ⟨g.2.2.2.1, g.2.2.2.2.1⟩
  | encoding d seen => obtain ⟨_, _, _, g, _⟩ := g; simp only [own, Option.some.injEq] at e; subst e; exact ⟨g.1, g.2.1⟩
  | done t => simp [own] at e

theorem inv_init {H : Hashes} (h : Heap) (args : List (Slice × Slice)) : Inv H h args (init h args) := by
  have st : ∀ (i : Nat) (c : Call), (init h args).calls[i]? = some c → c.stage = .start := by
    intro i c e
    simp only [init, List.getElem?_map, Option.map_eq_some_iff] at e
    obtain ⟨a, _, rfl⟩ := e
    rfl
  refine ⟨Nat.le_refl _, fun _ _ => rfl, ?_, ?_, ?_, ?_⟩
  · simp only [init, List.map_map]
    exact List.map_id args
  · intro i c e; rw [st i c e]; trivial
  · intro i c a e o; rw [st i c e] at o; simp [own] at o
  · intro i j c e a _ hc _ o; rw [st i c hc] at o; simp [own] at o

theorem inv_step {H : Hashes} {grow : Nat → Nat → Nat} {h₀ : Heap} {args : List (Slice × Slice)} {s : State} (I : Inv H h₀ args s)
    (ok : ∀ a ∈ args, Valid h₀ a.1 ∧ a.1.arr < h₀.length ∧ Valid h₀ a.2 ∧ a.2.arr < h₀.length ∧ a.1.cap < a.1.len + a.2.len) (i : Nat) :
    Inv H h₀ args (stepAt H grow s i) := by
  unfold stepAt
  cases hc : s.calls[i]? with
  | none => exact I
  | some c =>
    obtain ⟨pre, hash, st⟩ := c
    simp only
    have hm : (pre, hash) ∈ args := by
      rw [← I.args_eq]
      exact List.mem_map.mpr ⟨_, List.mem_of_getElem? hc, rfl⟩
    obtain ⟨o1, o2, o3, o4, o5⟩ := ok _ hm
    obtain ⟨g1, g2, g3, g4, g5, g6⟩ := step_good (grow := grow) I.grown I.old o1 o2 o3 o4 o5 (I.good i _ hc)
    have get : ∀ (j : Nat) (c' : Call), (s.calls.set i (step H grow (s.heap, ⟨pre, hash, st⟩)).2)[j]? = some c' →
        (j = i ∧ c' = (step H grow (s.heap, ⟨pre, hash, st⟩)).2) ∨ (j ≠ i ∧ s.calls[j]? = some c') := by
      intro j c' e
      rw [List.getElem?_set] at e
      by_cases ij : i = j
      · subst ij
        rw [if_pos rfl] at e
        split at e
        · exact Or.inl ⟨rfl, (Option.some.inj e).symm⟩
        · cases e
      · rw [if_neg ij] at e
        exact Or.inr ⟨fun h => ij h.symm, e⟩
    have good' : ∀ (j : Nat) (c' : Call), (s.calls.set i (step H grow (s.heap, ⟨pre, hash, st⟩)).2)[j]? = some c' →
        Good H h₀.length (step H grow (s.heap, ⟨pre, hash, st⟩)).1 (read h₀ c'.pre) (read h₀ c'.hash) c'.stage := by
      intro j c' e
      rcases get j c' e with ⟨_, rfl⟩ | ⟨ne, e⟩
      · rw [g2, g3]; exact g1
      · refine (I.good j c' e).mono g4 ?_
        intro a ho
        exact g5 a (I.bound j c' a e ho).2 (I.apart j i _ _ a ne e hc ho)
    refine ⟨Nat.le_trans I.grown g4, ?_, ?_, good', ?_, ?_⟩
    · intro a ha
      rw [← I.old a ha]
      have := I.grown
      apply g5 a (by show a < s.heap.length; omega)
      intro ho
      have := (I.bound i _ a hc ho).1
      omega
    · conv_rhs => rw [← I.args_eq]
      simp only [List.map_set, g2, g3]
      apply List.ext_getElem?
      intro j
      rw [List.getElem?_set]
      split
      · rename_i e
        subst e
        obtain ⟨hi, _⟩ := List.getElem?_eq_some_iff.mp hc
        rw [if_pos (by simpa using hi), List.getElem?_map, hc]
        rfl
      · rfl
    · intro j c' a e ho
      exact (good' j c' e).own_lt ho
    · intro j k c' e' a jk hj hk ho
      rcases get j c' hj with ⟨ji, rfl⟩ | ⟨ji, hj⟩
      · rcases get k e' hk with ⟨ki, rfl⟩ | ⟨ki, hk⟩
        · omega
        · rcases (g6 a ho).2 with ho | ho
          · exact I.apart i k _ _ a (by omega) hc hk ho
          · intro hk'
            have := (I.bound k _ a hk hk').2
            omega
      · rcases get k e' hk with ⟨ki, rfl⟩ | ⟨ki, hk⟩
        · intro ho'
          rcases (g6 a ho').2 with ho' | ho'
          · exact I.apart j i _ _ a (by omega) hj hc ho ho'
          · have := (I.bound j _ a hj ho).2
            omega
        · exact I.apart j k _ _ a jk hj hk ho

theorem inv_run {H : Hashes} {grow : Nat → Nat → Nat} {h₀ : Heap} {args : List (Slice × Slice)}
    (ok : ∀ a ∈ args, Valid h₀ a.1 ∧ a.1.arr < h₀.length ∧ Valid h₀ a.2 ∧ a.2.arr < h₀.length ∧ a.1.cap < a.1.len + a.2.len) (sched : List Nat)
    {s : State} (I : Inv H h₀ args s) : Inv H h₀ args (run H grow s sched) := by
  induction sched generalizing s with
  | nil => exact I
  | cons i sched ih => exact ih (inv_step I ok i)

/-! ### Every call returns -/

/-- The lengths of the slices of a call. -/
def Shape (pre hash : Slice) : Stage → Prop
  | .start => True
  | .joining d _ => d.len = pre.len + hash.len
  | .hashing d _ => d.len = pre.len + hash.len
  | .sealing d sum _ => d.len = pre.len + hash.len + sum.length ∧ sum.length ≤ 4
  | .encoding d _ => d.len ≤ pre.len + hash.len + 4
  | .done _ => True

/-- A bound on the steps that a call still needs. -/
def rank (pre hash : Slice) : Stage → Nat
  | .start => hash.len + 2 * (pre.len + hash.len) + 13
  | .joining _ i => (hash.len - i) + 2 * (pre.len + hash.len) + 12
  | .hashing _ seen => (pre.len + hash.len - seen.length) + (pre.len + hash.len) + 11
  | .sealing _ sum i => (sum.length - i) + (pre.len + hash.len) + 6
  | .encoding d seen => (d.len - seen.length) + 1
  | .done _ => 0

theorem reserve_len (grow : Nat → Nat → Nat) (h : Heap) (s : Slice) (n : Nat) : (reserve grow h s n).1.len = s.len + n := by
  unfold reserve; split <;> rfl

theorem step_rank {H : Hashes} {grow : Nat → Nat → Nat} {h : Heap} {pre hash : Slice} {st : Stage} (g : Shape pre hash st) :
    Shape pre hash (step H grow (h, ⟨pre, hash, st⟩)).2.stage ∧ (step H grow (h, ⟨pre, hash, st⟩)).2.pre = pre ∧
      (step H grow (h, ⟨pre, hash, st⟩)).2.hash = hash ∧ rank pre hash (step H grow (h, ⟨pre, hash, st⟩)).2.stage ≤ rank pre hash st - 1 := by
  cases st with
  | start => exact ⟨reserve_len _ _ _ _, rfl, rfl, by simp only [step, rank]; omega⟩
  | joining d i =>
    simp only [step]
    split
    · exact ⟨g, rfl, rfl, by simp only [rank]; omega⟩
    · exact ⟨g, rfl, rfl, by simp only [rank, List.length_nil]; omega⟩
  | hashing d seen =>
    simp only [step]
    split
    · rename_i hi
      simp only [Shape] at g
      exact ⟨g, rfl, rfl, by simp only [rank, List.length_append, List.length_cons, List.length_nil]; omega⟩
    · simp only [Shape] at g
      have : ((H.hash .doubleSha256 seen).take 4).length ≤ 4 := by simp
      refine ⟨⟨by rw [reserve_len, g], this⟩, rfl, rfl, ?_⟩
      simp only [rank]; omega
  | sealing d sum i =>
    simp only [step]
    obtain ⟨g1, g2⟩ := g
    split
    · exact ⟨⟨g1, g2⟩, rfl, rfl, by simp only [rank]; omega⟩
    · refine ⟨?_, rfl, rfl, ?_⟩
      · simp only [Shape]; omega
      · simp only [rank, List.length_nil]; omega
  | encoding d seen =>
    simp only [step]
    split
    · exact ⟨g, rfl, rfl, by simp only [rank, List.length_append, List.length_cons, List.length_nil]; omega⟩
    · exact ⟨trivial, rfl, rfl, by simp only [rank]; omega⟩
  | done t => exact ⟨trivial, rfl, rfl, Nat.zero_le _⟩

theorem run_rank {H : Hashes} {grow : Nat → Nat → Nat} (i : Nat) (sched : List Nat) (s : State) (c : Call) (hc : s.calls[i]? = some c)
    (g : Shape c.pre c.hash c.stage) :
    ∃ c', (run H grow s sched).calls[i]? = some c' ∧ c'.pre = c.pre ∧ c'.hash = c.hash ∧ rank c.pre c.hash c'.stage ≤ rank c.pre c.hash c.stage - sched.count i := by
  induction sched generalizing s c with
  | nil => exact ⟨c, hc, rfl, rfl, by simp⟩
  | cons j sched ih =>
    show ∃ c', (run H grow (stepAt H grow s j) sched).calls[i]? = some c' ∧ _
    by_cases e : j = i
    · subst e
      obtain ⟨pre, hash, st⟩ := c
      obtain ⟨r1, r2, r3, r4⟩ := step_rank (H := H) (grow := grow) (h := s.heap) g
      have hget : (stepAt H grow s j).calls[j]? = some (step H grow (s.heap, ⟨pre, hash, st⟩)).2 := by
        unfold stepAt
        rw [hc]
        simp only
        rw [List.getElem?_set_self (by have := List.getElem?_eq_some_iff.mp hc; exact this.1)]
      obtain ⟨c', h1, h2, h3, h4⟩ := ih _ _ hget (by rw [r2, r3]; exact r1)
      rw [r2] at h2 h4
      rw [r3] at h3 h4
      refine ⟨c', h1, h2, h3, ?_⟩
      rw [List.count_cons_self]
      simp only at r4 h4 ⊢
      omega
    · have hget : (stepAt H grow s j).calls[i]? = some c := by
        unfold stepAt
        split
        · exact hc
        · simp only
          rw [List.getElem?_set_ne e]
          exact hc
      obtain ⟨c', h1, h2, h3, h4⟩ := ih _ _ hget g
      refine ⟨c', h1, h2, h3, ?_⟩
      rw [List.count_cons_of_ne e]
      exact h4

/-! ### A call that runs alone for a while -/

theorem run_append {H : Hashes} {grow : Nat → Nat → Nat} (s : State) (a b : List Nat) : run H grow s (a ++ b) = run H grow (run H grow s a) b :=
  List.foldl_append ..

/-- `n` steps of one call. -/
theorem run_alone {H : Hashes} {grow : Nat → Nat → Nat} (i n : Nat) (s : State) (c : Call) (hc : s.calls[i]? = some c) :
    run H grow s (List.replicate n i) = ⟨((step H grow)^[n] (s.heap, c)).1, s.calls.set i ((step H grow)^[n] (s.heap, c)).2⟩ := by
  induction n generalizing s c with
  | zero =>
    obtain ⟨hi, e⟩ := List.getElem?_eq_some_iff.mp hc
    show s = ⟨s.heap, s.calls.set i c⟩
    rw [← e, List.set_getElem_self]
  | succ n ih =>
    obtain ⟨hi, _⟩ := List.getElem?_eq_some_iff.mp hc
    have h1 : stepAt H grow s i = ⟨(step H grow (s.heap, c)).1, s.calls.set i (step H grow (s.heap, c)).2⟩ := by
      unfold stepAt; rw [hc]
    show run H grow (stepAt H grow s i) (List.replicate n i) = _
    rw [ih (stepAt H grow s i) (step H grow (s.heap, c)).2 (by rw [h1]; exact List.getElem?_set_self hi), h1]
    simp only [List.set_set, Function.iterate_succ_apply]

/-- Writing one byte behind what has been written. -/
theorem write_next {h : Heap} {a p : Nat} {d : Bytes} {i : Nat} (ha : a < h.length) (hp : p + d.length ≤ (array h a).length) (hi : i < d.length) :
    write (write h a p (d.take i)) a (p + i) [d[i]] = write h a p (d.take (i + 1)) := by
  have hb : ∀ b : Bytes, p + d.length ≤ b.length → patch (patch b p (d.take i)) (p + i) [d[i]] = patch b p (d.take (i + 1)) := by
    intro b hb
    have hl : (d.take i).length = i := by simp; omega
    have hl' : (b.take p ++ d.take i).length = p + i := by simp; omega
    unfold patch
    rw [hl, List.take_append_of_le_length (by omega), List.take_of_length_le (by omega), List.drop_append, List.drop_eq_nil_of_le (by simp; omega), hl',
      List.nil_append, List.drop_drop, List.take_add_one, List.getElem?_eq_getElem hi]
    simp only [List.length_cons, List.length_nil, List.append_assoc, Option.toList_some, List.length_append]
    congr 4
    omega
  apply List.ext_getElem?
  intro j
  unfold write
  rw [List.getElem?_modify, List.getElem?_modify, List.getElem?_modify]
  by_cases e : a = j
  · subst e
    have : array h a = h[a] := by unfold array; rw [List.getD_eq_getElem?_getD, List.getElem?_eq_getElem ha]; rfl
    rw [this] at hp
    rw [List.getElem?_eq_getElem ha]
    simp only [if_true, Option.map_some, Option.map_eq_map]
    rw [hb _ hp]
  · simp [e]

/-- Writing over what has been written. -/
theorem write_over {h : Heap} {a p : Nat} {d e : Bytes} (ha : a < h.length) (hp : p + d.length ≤ (array h a).length) (hl : d.length = e.length) :
    write (write h a p d) a p e = write h a p e := by
  have hb : ∀ b : Bytes, p + d.length ≤ b.length → patch (patch b p d) p e = patch b p e := by
    intro b hb
    unfold patch
    have h1 : (b.take p).length = p := by simp; omega
    have h2 : (b.take p ++ d ++ b.drop (p + d.length)).take p = b.take p := by
      rw [List.append_assoc, List.take_append_of_le_length (by omega), List.take_of_length_le (by omega)]
    have h3 : (b.take p ++ d ++ b.drop (p + d.length)).drop (p + e.length) = b.drop (p + e.length) := by
      rw [List.drop_append, List.drop_eq_nil_of_le (by simp; omega), List.nil_append, List.drop_drop]
      congr 1
      simp only [List.length_append]
      omega
    rw [h2, h3]
  apply List.ext_getElem?
  intro j
  unfold write
  rw [List.getElem?_modify, List.getElem?_modify, List.getElem?_modify]
  by_cases e' : a = j
  · subst e'
    have : array h a = h[a] := by unfold array; rw [List.getD_eq_getElem?_getD, List.getElem?_eq_getElem ha]; rfl
    rw [this] at hp
    rw [List.getElem?_eq_getElem ha]
    simp only [if_true, Option.map_some, Option.map_eq_map]
    rw [hb _ hp]
  · simp [e']

theorem write_nil {h : Heap} {a p : Nat} : write h a p [] = h := by
  unfold write
  have : (fun b : Bytes => patch b p []) = id := by
    funext b; unfold patch; simp
  rw [this]
  exact List.modify_id ..

/-- Copying the hash behind the prefix. -/
theorem steps_joining {H : Hashes} {grow : Nat → Nat → Nat} {h : Heap} {pre hash d : Slice} (vq : Valid h hash) (hd : d.arr < h.length)
    (ne : hash.arr ≠ d.arr) (hr : d.off + pre.len + hash.len ≤ (array h d.arr).length) (n : Nat) (hn : n ≤ hash.len) :
    (step H grow)^[n] (h, ⟨pre, hash, .joining d 0⟩) = (write h d.arr (d.off + pre.len) ((read h hash).take n), ⟨pre, hash, .joining d n⟩) := by
  have lq := read_length vq
  induction n with
  | zero => simp [write_nil]
  | succ n ih =>
    rw [Function.iterate_succ_apply', ih (by omega)]
    simp only [step]
    rw [if_pos (by omega)]
    have hb : byteAt (write h d.arr (d.off + pre.len) ((read h hash).take n)) hash n = (read h hash)[n] := by
      have := byteAt_read vq (i := n) (by omega)
      rw [List.getElem?_eq_getElem (by omega)] at this
      rw [Option.some.inj this]
      unfold byteAt
      rw [array_write hd, if_neg ne]
    rw [hb, write_next hd (by omega) (by omega)]

/-- Reading the bytes of a slice. -/
theorem steps_hashing {H : Hashes} {grow : Nat → Nat → Nat} {h : Heap} {pre hash d : Slice} (v : Valid h d) (n : Nat) (hn : n ≤ d.len) :
    (step H grow)^[n] (h, ⟨pre, hash, .hashing d []⟩) = (h, ⟨pre, hash, .hashing d ((read h d).take n)⟩) := by
  have lq := read_length v
  induction n with
  | zero => simp
  | succ n ih =>
    rw [Function.iterate_succ_apply', ih (by omega)]
    simp only [step]
    have : ((read h d).take n).length = n := by simp; omega
    rw [this, if_pos (by omega), take_byte v (by omega)]

theorem steps_encoding {H : Hashes} {grow : Nat → Nat → Nat} {h : Heap} {pre hash d : Slice} (v : Valid h d) (n : Nat) (hn : n ≤ d.len) :
    (step H grow)^[n] (h, ⟨pre, hash, .encoding d []⟩) = (h, ⟨pre, hash, .encoding d ((read h d).take n)⟩) := by
  have lq := read_length v
  induction n with
  | zero => simp
  | succ n ih =>
    rw [Function.iterate_succ_apply', ih (by omega)]
    simp only [step]
    have : ((read h d).take n).length = n := by simp; omega
    rw [this, if_pos (by omega), take_byte v (by omega)]

theorem steps_sealing {H : Hashes} {grow : Nat → Nat → Nat} {h : Heap} {pre hash d : Slice} {sum : Bytes} (hd : d.arr < h.length)
    (hr : d.off + (d.len - sum.length) + sum.length ≤ (array h d.arr).length) (n : Nat) (hn : n ≤ sum.length) :
    (step H grow)^[n] (h, ⟨pre, hash, .sealing d sum 0⟩) = (write h d.arr (d.off + (d.len - sum.length)) (sum.take n), ⟨pre, hash, .sealing d sum n⟩) := by
  induction n with
  | zero => simp [write_nil]
  | succ n ih =>
    rw [Function.iterate_succ_apply', ih (by omega)]
    simp only [step]
    rw [if_pos (by omega)]
    have hb : sum.getD n 0 = sum[n] := by rw [List.getD_eq_getElem?_getD, List.getElem?_eq_getElem (by omega)]; rfl
    rw [hb, write_next hd (by omega) (by omega)]

/-- From the first `append` into spare capacity to the end of copying. -/
theorem steps_join {H : Hashes} {grow : Nat → Nat → Nat} {h : Heap} {pre hash : Slice} (vp : Valid h pre) (ap : pre.arr < h.length) (vq : Valid h hash)
    (ne : hash.arr ≠ pre.arr) (room : pre.len + hash.len ≤ pre.cap) :
    (step H grow)^[hash.len + 2] (h, ⟨pre, hash, .start⟩) =
      (write h pre.arr (pre.off + pre.len) (read h hash), ⟨pre, hash, .hashing { pre with len := pre.len + hash.len } []⟩) := by
  obtain ⟨v1, v2⟩ := vp
  rw [Function.iterate_succ_apply', Function.iterate_succ_apply]
  have e1 : step H grow (h, ⟨pre, hash, .start⟩) = (h, ⟨pre, hash, .joining { pre with len := pre.len + hash.len } 0⟩) := by
    simp only [step, reserve]; rw [if_pos room]
  rw [e1, steps_joining vq (d := { pre with len := pre.len + hash.len }) ap ne (by simp only; omega) _ (Nat.le_refl _),
    List.take_of_length_le (by rw [read_length vq])]
  simp [step]

/-- From reading the joined bytes to the text. -/
theorem steps_finish {H : Hashes} {grow : Nat → Nat → Nat} {h : Heap} {pre hash d : Slice} (v : Valid h d) (ad : d.arr < h.length) :
    ∃ n, (step H grow)^[n] (h, ⟨pre, hash, .hashing d []⟩) = ((append grow h d ((H.hash .doubleSha256 (read h d)).take 4)).2,
      ⟨pre, hash, .done (Base58.encode Btc.alphabet (read h d ++ (H.hash .doubleSha256 (read h d)).take 4))⟩) := by
  generalize hsum : (H.hash .doubleSha256 (read h d)).take 4 = sum
  have rv := valid_append (grow := grow) (d := sum) v ad
  have rr := read_append (grow := grow) (d := sum) v ad
  obtain ⟨r1, r2⟩ := reserve_append grow h d sum v
  have hlen := reserve_len grow h d sum.length
  have e1 : (step H grow)^[d.len + 1] (h, ⟨pre, hash, .hashing d []⟩) =
      ((reserve grow h d sum.length).2, ⟨pre, hash, .sealing (reserve grow h d sum.length).1 sum 0⟩) := by
    rw [Function.iterate_succ_apply', steps_hashing v _ (Nat.le_refl _), List.take_of_length_le (by rw [read_length v])]
    simp only [step]
    rw [if_neg (by rw [read_length v]; omega), hsum]
  have hfit : (reserve grow h d sum.length).1.arr < (reserve grow h d sum.length).2.length ∧
      (reserve grow h d sum.length).1.off + (d.len + sum.length) ≤ (array (reserve grow h d sum.length).2 (reserve grow h d sum.length).1.arr).length := by
    have lq := read_length v
    obtain ⟨v1, v2⟩ := v
    unfold reserve
    split
    · exact ⟨ad, by simp only; omega⟩
    · refine ⟨by simp, ?_⟩
      simp only [array_append_new, List.length_append, List.length_replicate, lq]
      omega
  have e2 : (step H grow)^[sum.length + 1] ((reserve grow h d sum.length).2, ⟨pre, hash, .sealing (reserve grow h d sum.length).1 sum 0⟩) =
      ((append grow h d sum).2, ⟨pre, hash, .encoding (append grow h d sum).1 []⟩) := by
    rw [Function.iterate_succ_apply', steps_sealing hfit.1 (by rw [hlen]; omega) _ (Nat.le_refl _), List.take_length, hlen, Nat.add_sub_cancel, r2, r1]
    simp [step]
  have e3 : (step H grow)^[(append grow h d sum).1.len + 1] ((append grow h d sum).2, ⟨pre, hash, .encoding (append grow h d sum).1 []⟩) =
      ((append grow h d sum).2, ⟨pre, hash, .done (Base58.encode Btc.alphabet (read h d ++ sum))⟩) := by
    rw [Function.iterate_succ_apply', steps_encoding rv.1 _ (Nat.le_refl _), List.take_of_length_le (by rw [read_length rv.1])]
    simp only [step]
    rw [if_neg (by rw [read_length rv.1]; omega), rr]
  refine ⟨((append grow h d sum).1.len + 1) + ((sum.length + 1) + (d.len + 1)), ?_⟩
  rw [Function.iterate_add_apply _ (_ + 1), Function.iterate_add_apply _ (sum.length + 1), e1, e2, e3]

end Verif.CheckMem
