import Verif.Spec.KeyMemory
import Verif.Lemmas.AddressMemory
import Verif.Lemmas.OwKeychain

/-! Which slices of keys and shares can be reached by writing into spare capacity. -/

namespace Verif.KeyMem
open Verif Verif.OwKeychain Verif.Mem Verif.Spec.KeyMem

/-! ### Larger memories -/

theorem array_ext {h g : Heap} {a : Nat} (ha : a < h.length) : array (h ++ g) a = array h a := by
  unfold array
  simp [List.getD_eq_getElem?_getD, List.getElem?_append_left ha]

theorem read_ext {h g : Heap} {s : Slice} (hs : s.arr < h.length) : read (h ++ g) s = read h s := by
  unfold Mem.read
  rw [array_ext hs]

theorem valid_ext {h g : Heap} {s : Slice} (hs : s.arr < h.length) (v : Valid h s) : Valid (h ++ g) s := by
  refine ⟨v.1, ?_⟩
  rw [array_ext hs]
  exact v.2

/-- A slice that lies in memory. -/
def Ok (h : Heap) (s : Slice) : Prop := Valid h s ∧ s.arr < h.length

theorem Ok.ext {h g : Heap} {s : Slice} (k : Ok h s) : Ok (h ++ g) s := ⟨valid_ext k.2 k.1, by rw [List.length_append]; have := k.2; omega⟩

theorem behind_arr {s t : Slice} (h : s.arr ≠ t.arr) : Behind s t := fun e => absurd e h

theorem behind_self (s : Slice) : Behind s s := fun _ => Or.inr (Or.inl (Nat.le_refl _))

/-! ### The slices of a state -/

def Key.cells (k : Key) : List Slice := [k.parentFP, k.chainCode, k.key]
def Share.cells (s : Share) : List Slice := [s.pubkey, s.chainCode]
def World.cells (w : World) : List Slice := w.keys.flatMap Key.cells ++ w.shares.flatMap Share.cells

/-- The invariant: the values are right, all slices lie in memory, and behind the slices that the program can append to (those it has, and the key
data of keys not made from a seed) there is no part of a key or share. -/
structure Inv (w : World) (v : Values) : Prop where
  keys : w.keys.map (Key.view w.heap) = v.keys.map Prod.fst
  shares : w.shares.map (Share.view w.heap) = v.shares
  seeds : ∀ k ∈ v.keys, k.2 = true → k.1.isPrivate = true
  ok : ∀ t ∈ w.cells, Ok w.heap t
  bytes : ∀ s ∈ w.bytes, Ok w.heap s ∧ ∀ t ∈ w.cells, Behind s t
  free : ∀ (i : Nat) (k : Key) (x : ExtendedKey), w.keys[i]? = some k → v.keys[i]? = some (x, false) → ∀ t ∈ w.cells, Behind k.key t

theorem Inv.get {w : World} {v : Values} (I : Inv w v) {i : Nat} {k : Key} (h : w.keys[i]? = some k) : ∃ b, v.keys[i]? = some (k.view w.heap, b) := by
  have := congrArg (fun l => l[i]?) I.keys
  simp only [List.getElem?_map, h, Option.map_some] at this
  cases hv : v.keys[i]? with
  | none => rw [hv] at this; simp at this
  | some p =>
    rw [hv] at this
    simp only [Option.map_some, Option.some.injEq] at this
    exact ⟨p.2, by rw [this]⟩

theorem Inv.none {w : World} {v : Values} (I : Inv w v) {i : Nat} (h : w.keys[i]? = none) : v.keys[i]? = none := by
  have := congrArg (fun l => l[i]?) I.keys
  simp only [List.getElem?_map, h, Option.map_none] at this
  cases hv : v.keys[i]? with
  | none => rfl
  | some p => rw [hv] at this; simp at this

theorem mem_key_cells {w : World} {k : Key} (h : k ∈ w.keys) {t : Slice} (ht : t ∈ k.cells) : t ∈ w.cells :=
  List.mem_append_left _ (List.mem_flatMap.mpr ⟨k, h, ht⟩)

/-- Memory is only extended. -/
theorem Inv.extend {w : World} {v : Values} (I : Inv w v) (g : Heap) : Inv { w with heap := w.heap ++ g } v := by
  refine ⟨?_, ?_, I.seeds, fun t ht => (I.ok t ht).ext, fun s hs => ⟨(I.bytes s hs).1.ext, (I.bytes s hs).2⟩, I.free⟩
  · rw [← I.keys]
    apply List.map_congr_left
    intro k hk
    have e : ∀ t ∈ k.cells, read (w.heap ++ g) t = read w.heap t := fun t ht => read_ext (I.ok t (mem_key_cells hk ht)).2
    unfold Key.view
    simp only
    rw [e _ (by simp [Key.cells]), e _ (by simp [Key.cells]), e _ (by simp [Key.cells])]
  · rw [← I.shares]
    apply List.map_congr_left
    intro s hs
    have e : ∀ t ∈ s.cells, read (w.heap ++ g) t = read w.heap t := fun t ht =>
      read_ext (I.ok t (List.mem_append_right _ (List.mem_flatMap.mpr ⟨s, hs, ht⟩))).2
    unfold Share.view
    simp only
    rw [e _ (by simp [Share.cells]), e _ (by simp [Share.cells])]

/-- Appending to a slice that the program has. -/
theorem Inv.append {w : World} {v : Values} (I : Inv w v) (grow : Nat → Nat → Nat) {s : Slice} (hs : s ∈ w.bytes) (d : Bytes) :
    Inv { w with heap := (Mem.append grow w.heap s d).2 } v := by
  obtain ⟨⟨vs, as⟩, bs⟩ := I.bytes s hs
  have keep : ∀ t ∈ w.cells, read (Mem.append grow w.heap s d).2 t = read w.heap t := fun t ht => read_append_other vs (bs t ht) (I.ok t ht).2
  have okk : ∀ t, Ok w.heap t → Ok (Mem.append grow w.heap s d).2 t := fun t ht =>
    ⟨valid_append_other vs ht.1 ht.2, Nat.lt_of_lt_of_le ht.2 append_length⟩
  refine ⟨?_, ?_, I.seeds, fun t ht => okk t (I.ok t ht), fun u hu => ⟨okk u (I.bytes u hu).1, (I.bytes u hu).2⟩, I.free⟩
  · rw [← I.keys]
    apply List.map_congr_left
    intro k hk
    have e : ∀ t ∈ k.cells, read (Mem.append grow w.heap s d).2 t = read w.heap t := fun t ht => keep t (mem_key_cells hk ht)
    unfold Key.view
    simp only
    rw [e _ (by simp [Key.cells]), e _ (by simp [Key.cells]), e _ (by simp [Key.cells])]
  · rw [← I.shares]
    apply List.map_congr_left
    intro s' hs'
    have e : ∀ t ∈ s'.cells, read (Mem.append grow w.heap s d).2 t = read w.heap t := fun t ht =>
      keep t (List.mem_append_right _ (List.mem_flatMap.mpr ⟨s', hs', ht⟩))
    unfold Share.view
    simp only
    rw [e _ (by simp [Share.cells]), e _ (by simp [Share.cells])]

/-- The program gets a slice behind which there is no part of a key or share. -/
theorem Inv.give {w : World} {v : Values} (I : Inv w v) {s : Slice} (hs : Ok w.heap s) (hb : ∀ t ∈ w.cells, Behind s t) :
    Inv { w with bytes := w.bytes ++ [s] } v := by
  refine ⟨I.keys, I.shares, I.seeds, I.ok, fun u hu => ?_, I.free⟩
  rcases List.mem_append.mp hu with hu | hu
  · exact I.bytes u hu
  · rw [List.mem_singleton.mp hu]
    exact ⟨hs, hb⟩

/-- A key is added, in new arrays or with slices of other keys. -/
theorem Inv.addKey {w : World} {v : Values} (I : Inv w v) (g : Heap) (k : Key) (seed : Bool) (hok : ∀ t ∈ k.cells, Ok (w.heap ++ g) t)
    (hnew : ∀ t ∈ k.cells, w.heap.length ≤ t.arr ∨ t ∈ w.cells) (hp : seed = true → k.isPrivate = true)
    (hfree : seed = false → (w.heap.length ≤ k.key.arr ∨ ∀ t ∈ w.cells, Behind k.key t) ∧ ∀ t ∈ k.cells, Behind k.key t) :
    Inv { w with heap := w.heap ++ g, keys := w.keys ++ [k] } { v with keys := v.keys ++ [(k.view (w.heap ++ g), seed)] } := by
  have J := I.extend g
  have hl : w.keys.length = v.keys.length := by simpa using congrArg List.length I.keys
  have cells : ∀ t, t ∈ World.cells { w with heap := w.heap ++ g, keys := w.keys ++ [k] } → t ∈ w.cells ∨ t ∈ k.cells := by
    intro t ht
    unfold World.cells at ht ⊢
    simp only [List.flatMap_append, List.mem_append, List.flatMap_singleton] at ht ⊢
    rcases ht with (ht | ht) | ht
    · exact Or.inl (Or.inl ht)
    · exact Or.inr ht
    · exact Or.inl (Or.inr ht)
  have old : ∀ s, Ok w.heap s → (∀ t ∈ w.cells, Behind s t) → ∀ t ∈ k.cells, Behind s t := by
    intro s hs hb t ht
    rcases hnew t ht with h | h
    · exact behind_arr (by have := hs.2; omega)
    · exact hb t h
  refine ⟨?_, J.shares, ?_, ?_, ?_, ?_⟩
  · simp only [List.map_append, List.map_cons, List.map_nil]
    rw [J.keys]
  · intro p hp'
    rcases List.mem_append.mp hp' with h | h
    · exact I.seeds p h
    · rw [List.mem_singleton.mp h]
      exact hp
  · intro t ht
    rcases cells t ht with h | h
    · exact J.ok t h
    · exact hok t h
  · intro s hs
    refine ⟨(J.bytes s hs).1, fun t ht => ?_⟩
    rcases cells t ht with h | h
    · exact (J.bytes s hs).2 t h
    · exact old s (I.bytes s hs).1 (I.bytes s hs).2 t h
  · intro i k' x hk hx t ht
    simp only at hk hx
    by_cases hi : i < w.keys.length
    · rw [List.getElem?_append_left hi] at hk
      rw [List.getElem?_append_left (by omega)] at hx
      have hb := I.free i k' x hk hx
      rcases cells t ht with h | h
      · exact hb t h
      · exact old k'.key (I.ok _ (mem_key_cells (List.mem_of_getElem? hk) (by simp [Key.cells]))) hb t h
    · have e : i = w.keys.length := by
        have := List.getElem?_eq_some_iff.mp hk
        obtain ⟨h1, _⟩ := this
        simp only [List.length_append, List.length_singleton] at h1
        omega
      rw [e] at hk
      rw [e, hl] at hx
      simp only [List.getElem?_concat_length, Option.some.injEq, Prod.mk.injEq] at hk hx
      rw [← hk]
      obtain ⟨f1, f2⟩ := hfree hx.2
      rcases cells t ht with h | h
      · rcases f1 with f1 | f1
        · exact behind_arr (by have := (I.ok t h).2; omega)
        · exact f1 t h
      · exact f2 t h

/-- A share is added, in a new array. -/
theorem Inv.addShare {w : World} {v : Values} (I : Inv w v) (g : Heap) (s : Share) (hok : ∀ t ∈ s.cells, Ok (w.heap ++ g) t)
    (hnew : ∀ t ∈ s.cells, w.heap.length ≤ t.arr) :
    Inv { w with heap := w.heap ++ g, shares := w.shares ++ [s] } { v with shares := v.shares ++ [s.view (w.heap ++ g)] } := by
  have J := I.extend g
  have cells : ∀ t, t ∈ World.cells { w with heap := w.heap ++ g, shares := w.shares ++ [s] } → t ∈ w.cells ∨ t ∈ s.cells := by
    intro t ht
    unfold World.cells at ht ⊢
    simp only [List.flatMap_append, List.mem_append, List.flatMap_singleton] at ht ⊢
    rcases ht with ht | ht | ht
    · exact Or.inl (Or.inl ht)
    · exact Or.inl (Or.inr ht)
    · exact Or.inr ht
  have old : ∀ s', Ok w.heap s' → ∀ t ∈ s.cells, Behind s' t := by
    intro s' hs t ht
    exact behind_arr (by have := hs.2; have := hnew t ht; omega)
  refine ⟨J.keys, ?_, I.seeds, ?_, ?_, ?_⟩
  · simp only [List.map_append, List.map_cons, List.map_nil]
    rw [J.shares]
  · intro t ht
    rcases cells t ht with h | h
    · exact J.ok t h
    · exact hok t h
  · intro s' hs
    refine ⟨(J.bytes s' hs).1, fun t ht => ?_⟩
    rcases cells t ht with h | h
    · exact (J.bytes s' hs).2 t h
    · exact old s' (I.bytes s' hs).1 t h
  · intro i k' x hk hx t ht
    rcases cells t ht with h | h
    · exact I.free i k' x hk hx t h
    · exact old k'.key (I.ok k'.key (mem_key_cells (w := w) (k := k') (t := k'.key) (List.mem_of_getElem? hk) (by simp [Key.cells]))) t h

/-! ### New keys -/

variable (E : Ext)

theorem alloc_ok (h g : Heap) (b : Bytes) : Ok (h ++ [b] ++ g) ⟨h.length, 0, b.length, b.length⟩ := by
  apply Ok.ext
  exact ⟨valid_alloc (h := h) (b := b), by simp⟩

theorem alloc_read (h g : Heap) (b : Bytes) : read (h ++ [b] ++ g) ⟨h.length, 0, b.length, b.length⟩ = b := by
  rw [read_ext (by simp)]
  exact read_alloc (h := h) (b := b)

/-- A key in new arrays. -/
theorem fresh_inv {w : World} {v : Values} (I : Inv w v) (r : ExtendedKey) :
    Inv (w.addKey (.ok (fresh w.heap r))) (v.addKey false (.ok r)) := by
  have hh : (fresh w.heap r).2 = w.heap ++ [r.parentFP, r.chainCode, r.key] := by simp [fresh, alloc]
  have e1 : (fresh w.heap r).1.parentFP = ⟨w.heap.length, 0, r.parentFP.length, r.parentFP.length⟩ := rfl
  have e2 : (fresh w.heap r).1.chainCode = ⟨w.heap.length + 1, 0, r.chainCode.length, r.chainCode.length⟩ := by simp [fresh, alloc]
  have e3 : (fresh w.heap r).1.key = ⟨w.heap.length + 2, 0, r.key.length, r.key.length⟩ := by simp [fresh, alloc]
  have o1 := alloc_ok w.heap [r.chainCode, r.key] r.parentFP
  have o2 := alloc_ok (w.heap ++ [r.parentFP]) [r.key] r.chainCode
  have o3 := alloc_ok (w.heap ++ [r.parentFP, r.chainCode]) [] r.key
  have a1 := alloc_read w.heap [r.chainCode, r.key] r.parentFP
  have a2 := alloc_read (w.heap ++ [r.parentFP]) [r.key] r.chainCode
  have a3 := alloc_read (w.heap ++ [r.parentFP, r.chainCode]) [] r.key
  simp only [List.append_assoc, List.cons_append, List.nil_append, List.length_append, List.length_cons, List.length_nil, Nat.zero_add, List.append_nil]
    at o1 o2 o3 a1 a2 a3
  have hv : (fresh w.heap r).1.view (w.heap ++ [r.parentFP, r.chainCode, r.key]) = r := by
    unfold Key.view
    rw [e1, e2, e3, a1, a2, a3]
    rfl
  have := I.addKey [r.parentFP, r.chainCode, r.key] (fresh w.heap r).1 false
    (by intro t ht; simp only [Key.cells, e1, e2, e3, List.mem_cons, List.not_mem_nil, or_false] at ht
        rcases ht with rfl | rfl | rfl
        · exact o1
        · exact o2
        · exact o3)
    (by intro t ht; simp only [Key.cells, e1, e2, e3, List.mem_cons, List.not_mem_nil, or_false] at ht
        left
        rcases ht with rfl | rfl | rfl
        · exact Nat.le_refl _
        · exact Nat.le_add_right _ _
        · exact Nat.le_add_right _ _)
    (by simp)
    (by intro _
        refine ⟨Or.inl (by rw [e3]; exact Nat.le_add_right _ _), ?_⟩
        intro t ht; simp only [Key.cells, e1, e2, e3, List.mem_cons, List.not_mem_nil, or_false] at ht ⊢
        rcases ht with rfl | rfl | rfl
        · exact behind_arr (by simp)
        · exact behind_arr (by simp)
        · exact behind_self _)
  rw [hv] at this
  unfold World.addKey Values.addKey
  have hf : fresh w.heap r = ((fresh w.heap r).1, w.heap ++ [r.parentFP, r.chainCode, r.key]) := by rw [← hh]
  rw [hf]
  exact this

/-- Parts of an array. -/
theorem sub_read {h : Heap} {s : Slice} (_ : Ok h s) {i j : Nat} (hj : j ≤ s.len) :
    read h (s.sub i j) = ((read h s).take j).drop i := by
  unfold Mem.read Slice.sub
  simp only
  rw [List.take_take, Nat.min_eq_left hj, List.drop_take, List.drop_drop]

theorem sub_ok {h : Heap} {s : Slice} (k : Ok h s) {i j : Nat} (hij : i ≤ j) (hj : j ≤ s.len) : Ok h (s.sub i j) := by
  obtain ⟨⟨v1, v2⟩, v3⟩ := k
  refine ⟨⟨?_, ?_⟩, v3⟩
  · simp only [Slice.sub]; omega
  · simp only [Slice.sub]; omega

theorem root_lengths {seed : Bytes} {c : UInt32} {r : ExtendedKey} (h : OwKeychain.initRootKey E seed c = .ok r) :
    r.key.length = 32 ∧ r.chainCode.length = 32 ∧ r.isPrivate = true := by
  unfold OwKeychain.initRootKey at h
  split at h
  · cases h
  · simp only [Res.ok.injEq] at h
    have hs := E.H.size .sha512 seed
    have hc : ∀ b : Bytes, (clampBls b).length = b.length := by intro b; cases b <;> simp [clampBls]
    rw [← h]
    simp only [List.length_take, List.length_drop]
    refine ⟨?_, ?_, trivial⟩ <;>
    · split_ifs <;> simp only [List.length_modify, hc, hs] <;> decide

theorem root_inv {w : World} {v : Values} (I : Inv w v) (seed : Bytes) (c : UInt32) :
    Inv (w.addKey (KeyMem.initRootKey E w.heap seed c)) (v.addKey true (OwKeychain.initRootKey E seed c)) := by
  unfold KeyMem.initRootKey
  cases hr : OwKeychain.initRootKey E seed c with
  | err => exact I
  | panic => exact I
  | ok r =>
    obtain ⟨l1, l2, l3⟩ := root_lengths E hr
    simp only [Res.bind_ok, alloc]
    have o1 := alloc_ok w.heap [r.parentFP] (r.key ++ r.chainCode)
    have o2 := alloc_ok (w.heap ++ [r.key ++ r.chainCode]) [] r.parentFP
    have a1 := alloc_read w.heap [r.parentFP] (r.key ++ r.chainCode)
    have a2 := alloc_read (w.heap ++ [r.key ++ r.chainCode]) [] r.parentFP
    simp only [List.append_assoc, List.cons_append, List.nil_append, List.length_append, List.length_cons, List.length_nil, Nat.zero_add, List.append_nil,
      l1, l2] at o1 o2 a1 a2 ⊢
    have s1 := sub_read o1 (i := 32) (j := 64) (by simp)
    have s2 := sub_read o1 (i := 0) (j := 32) (by simp)
    rw [a1] at s1 s2
    have t1 : ((r.key ++ r.chainCode).take 64).drop 32 = r.chainCode := by
      rw [List.take_of_length_le (by simp [l1, l2]), ← l1, List.drop_left]
    have t2 : ((r.key ++ r.chainCode).take 32).drop 0 = r.key := by
      rw [List.drop_zero, ← l1, List.take_left]
    rw [t1] at s1
    rw [t2] at s2
    have := I.addKey [r.key ++ r.chainCode, r.parentFP]
      ⟨r.depth, ⟨w.heap.length + 1, 0, r.parentFP.length, r.parentFP.length⟩, r.serializes, Slice.sub ⟨w.heap.length, 0, 32 + 32, 32 + 32⟩ 32 64,
        Slice.sub ⟨w.heap.length, 0, 32 + 32, 32 + 32⟩ 0 32, r.isPrivate, r.curveType⟩ true
      (by intro t ht; simp only [Key.cells, List.mem_cons, List.not_mem_nil, or_false] at ht
          rcases ht with rfl | rfl | rfl
          · exact o2
          · exact sub_ok o1 (by omega) (by simp)
          · exact sub_ok o1 (by omega) (by simp))
      (by intro t ht; simp only [Key.cells, List.mem_cons, List.not_mem_nil, or_false] at ht
          left
          rcases ht with rfl | rfl | rfl
          · exact Nat.le_add_right _ _
          · exact Nat.le_refl _
          · exact Nat.le_refl _)
      (fun _ => l3) (by simp)
    unfold Key.view at this
    simp only [s1, s2, a2] at this
    exact this

/-! ### Decoded keys and shares -/

theorem slice_eq {b c : Bytes} {i j : Nat} (h : slice b i j = .ok c) : c = (b.take j).drop i ∧ i ≤ j ∧ j ≤ b.length := by
  have hl := slice_length h
  rw [slice_ok hl.2.1 hl.2.2] at h
  exact ⟨(Res.ok.inj h).symm, hl.2⟩

theorem b58_parts {H : Hashes} {text fix b : Bytes} (h : b58CheckDecode H text fix = .ok b) :
    ∃ d, Base58.decode OwKeychain.alphabet text = .ok d ∧ b = (d.take (d.length - 4)).drop fix.length ∧ fix.length + 4 ≤ d.length := by
  unfold b58CheckDecode at h
  obtain ⟨d, h1, h⟩ := Res.bind_eq_ok.mp h
  obtain ⟨_, h2, h⟩ := Res.bind_eq_ok.mp h
  refine ⟨d, h1, ?_⟩
  split at h
  · simp at h
  · obtain ⟨body, h3, h⟩ := Res.bind_eq_ok.mp h
    split at h
    · simp at h
    · obtain ⟨e, h4, h5⟩ := slice_eq h
      exact ⟨e, by omega⟩

theorem owFields_parts {ids : CurveIds} {d : Bytes} {p : Bool} {r : ExtendedKey} (h : owFields ids d p = .ok r) :
    r.parentFP = (d.take 9).drop 5 ∧ r.chainCode = (d.take 45).drop 13 ∧
    (if padded ids r.curveType r.isPrivate then 46 else 45) ≤ d.length ∧
    r.key = (d.take d.length).drop (if padded ids r.curveType r.isPrivate then 46 else 45) ∧ r.isPrivate = p := by
  unfold owFields at h
  obtain ⟨_, _, h⟩ := Res.bind_eq_ok.mp h
  obtain ⟨_, _, h⟩ := Res.bind_eq_ok.mp h
  obtain ⟨_, h1, h⟩ := Res.bind_eq_ok.mp h
  obtain ⟨_, _, h⟩ := Res.bind_eq_ok.mp h
  obtain ⟨_, h2, h⟩ := Res.bind_eq_ok.mp h
  split at h
  · rename_i hp
    obtain ⟨z, _, h⟩ := Res.bind_eq_ok.mp h
    split at h
    · simp at h
    · obtain ⟨_, h3, h⟩ := Res.bind_eq_ok.mp h
      have h := Res.ok.inj h
      rw [← h]
      simp only
      rw [if_pos hp]
      exact ⟨(slice_eq h1).1, (slice_eq h2).1, (slice_eq h3).2.1, (slice_eq h3).1, trivial⟩
  · rename_i hp
    obtain ⟨_, h3, h⟩ := Res.bind_eq_ok.mp h
    have h := Res.ok.inj h
    rw [← h]
    simp only
    rw [if_neg hp]
    exact ⟨(slice_eq h1).1, (slice_eq h2).1, (slice_eq h3).2.1, (slice_eq h3).1, trivial⟩

theorem owDecode_parts {text : Bytes} {r : ExtendedKey} (h : OwKeychain.owDecode E text = .ok r) :
    ∃ d b, Base58.decode OwKeychain.alphabet text = .ok d ∧ b = (d.take (d.length - 4)).drop 5 ∧ 9 ≤ d.length ∧
      r.parentFP = (b.take 9).drop 5 ∧ r.chainCode = (b.take 45).drop 13 ∧
      (if padded E.ids r.curveType r.isPrivate then 46 else 45) ≤ b.length ∧
      r.key = (b.take b.length).drop (if padded E.ids r.curveType r.isPrivate then 46 else 45) := by
  have key : ∀ fix b p, fix.length = 5 → b58CheckDecode E.H text fix = .ok b → owFields E.ids b p = .ok r →
      ∃ d b, Base58.decode OwKeychain.alphabet text = .ok d ∧ b = (d.take (d.length - 4)).drop 5 ∧ 9 ≤ d.length ∧
      r.parentFP = (b.take 9).drop 5 ∧ r.chainCode = (b.take 45).drop 13 ∧
      (if padded E.ids r.curveType r.isPrivate then 46 else 45) ≤ b.length ∧
      r.key = (b.take b.length).drop (if padded E.ids r.curveType r.isPrivate then 46 else 45) := by
    intro fix b p hf h1 h2
    obtain ⟨d, e1, e2, e3⟩ := b58_parts h1
    obtain ⟨f1, f2, f3, f4, _⟩ := owFields_parts h2
    rw [hf] at e2 e3
    exact ⟨d, b, e1, e2, e3, f1, f2, f3, f4⟩
  unfold OwKeychain.owDecode at h
  split at h
  · split at h
    · simp at h
    · rename_i hb
      exact key _ _ _ rfl hb h
    · obtain ⟨_, hb, h⟩ := Res.bind_eq_ok.mp h
      exact key _ _ _ rfl hb h
  · split at h
    · obtain ⟨_, hb, h⟩ := Res.bind_eq_ok.mp h
      exact key _ _ _ rfl hb h
    · simp at h

theorem owDecode_inv {w : World} {v : Values} (I : Inv w v) (text : Bytes) :
    Inv (w.addKey (KeyMem.owDecode E w.heap text)) (v.addKey false (OwKeychain.owDecode E text)) := by
  unfold KeyMem.owDecode
  cases hr : OwKeychain.owDecode E text with
  | err => exact I
  | panic => exact I
  | ok r =>
    obtain ⟨d, b, h1, h2, h3, h4, h5, h6, h7⟩ := owDecode_parts E hr
    rw [h1]
    simp only [Res.bind_ok, alloc]
    generalize hn : (if padded E.ids r.curveType r.isPrivate then 46 else 45) = n at h6 h7 ⊢
    have n45 : 45 ≤ n := by rw [← hn]; split <;> omega
    have hbl : b.length = d.length - 9 := by rw [h2]; simp only [List.length_drop, List.length_take]; omega
    have o := alloc_ok w.heap [] d
    have a := alloc_read w.heap [] d
    simp only [List.append_nil] at o a
    have ob := sub_ok o (i := 5) (j := d.length - 4) (by omega) (by simp only; omega)
    have rb := sub_read o (i := 5) (j := d.length - 4) (by simp only; omega)
    rw [a, ← h2] at rb
    have lb : (Slice.sub ⟨w.heap.length, 0, d.length, d.length⟩ 5 (d.length - 4)).len = b.length := by simp only [Slice.sub]; omega
    generalize hB : Slice.sub ⟨w.heap.length, 0, d.length, d.length⟩ 5 (d.length - 4) = B at ob rb lb ⊢
    have s1 := sub_read ob (i := 5) (j := 9) (by omega)
    have s2 := sub_read ob (i := 13) (j := 45) (by omega)
    have s3 := sub_read ob (i := n) (j := B.len) (by omega)
    rw [rb] at s1 s2 s3
    rw [← h4] at s1
    rw [← h5] at s2
    rw [lb, ← h7] at s3
    have harr : w.heap.length ≤ B.arr := by rw [← hB]; exact Nat.le_refl _
    have := I.addKey [d] ⟨r.depth, B.sub 5 9, r.serializes, B.sub 13 45, B.sub n B.len, r.isPrivate, r.curveType⟩ false
      (by intro t ht; simp only [Key.cells, List.mem_cons, List.not_mem_nil, or_false] at ht
          rcases ht with rfl | rfl | rfl
          · exact sub_ok ob (by omega) (by omega)
          · exact sub_ok ob (by omega) (by omega)
          · exact sub_ok ob (by omega) (by omega))
      (by intro t ht; simp only [Key.cells, List.mem_cons, List.not_mem_nil, or_false] at ht
          left
          rcases ht with rfl | rfl | rfl <;> exact harr)
      (by simp)
      (by intro _
          refine ⟨Or.inl harr, ?_⟩
          intro t ht; simp only [Key.cells, List.mem_cons, List.not_mem_nil, or_false] at ht ⊢
          rcases ht with rfl | rfl | rfl
          · intro _; right; left; simp only [Slice.sub]; omega
          · intro _; right; left; simp only [Slice.sub]; omega
          · exact behind_self _)
    unfold Key.view at this
    simp only [s1, s2, lb, s3] at this
    rw [lb]
    exact this

theorem chainDecode_parts {text : Bytes} {r : MultiSigShare} (h : OwKeychain.chainDecode text = .ok r) :
    ∃ d, Base58.decode OwKeychain.alphabet text = .ok d ∧ d.length = 76 ∧ r.chainCode = (d.take 72).drop 40 ∧
      ((r.pubkey.length = 33 ∧ r.pubkey = (d.take 40).drop 7) ∨ (r.pubkey.length = 32 ∧ r.pubkey = (d.take 40).drop 8)) := by
  unfold OwKeychain.chainDecode at h
  split at h
  · simp at h
  · obtain ⟨d, h1, h⟩ := Res.bind_eq_ok.mp h
    refine ⟨d, h1, ?_⟩
    split at h
    · simp at h
    rename_i hd
    obtain ⟨_, _, h⟩ := Res.bind_eq_ok.mp h
    obtain ⟨p, hp, h⟩ := Res.bind_eq_ok.mp h
    obtain ⟨z, _, h⟩ := Res.bind_eq_ok.mp h
    have lp := (slice_length hp).1
    simp only at h
    split at h
    · obtain ⟨k, hk, h⟩ := Res.bind_eq_ok.mp h
      obtain ⟨c, hc, h⟩ := Res.bind_eq_ok.mp h
      obtain ⟨_, _, h⟩ := Res.bind_eq_ok.mp h
      have h := Res.ok.inj h
      have lk := (slice_length hk).1
      rw [← h]
      refine ⟨by omega, (slice_eq hc).1, Or.inr ⟨by simp only; omega, ?_⟩⟩
      simp only
      rw [(slice_eq hk).1, List.take_length, (slice_eq hp).1, List.drop_drop]
    · obtain ⟨k, hk, h⟩ := Res.bind_eq_ok.mp h
      obtain ⟨c, hc, h⟩ := Res.bind_eq_ok.mp h
      obtain ⟨_, _, h⟩ := Res.bind_eq_ok.mp h
      have h := Res.ok.inj h
      have hk := Res.ok.inj hk
      rw [← h]
      simp only
      rw [← hk]
      exact ⟨by omega, (slice_eq hc).1, Or.inl ⟨by omega, (slice_eq hp).1⟩⟩

theorem chainDecode_inv {w : World} {v : Values} (I : Inv w v) (grow : Nat → Nat → Nat) (text : Bytes) :
    Inv (exec E grow w (.chainDecode text)) (step E v (.chainDecode text)) := by
  simp only [exec, step]
  unfold KeyMem.chainDecode
  cases hr : OwKeychain.chainDecode text with
  | err => exact I
  | panic => exact I
  | ok r =>
    obtain ⟨d, h1, h2, h3, h4⟩ := chainDecode_parts hr
    rw [h1]
    simp only [Res.bind_ok, alloc]
    have o := alloc_ok w.heap [] d
    have a := alloc_read w.heap [] d
    simp only [List.append_nil] at o a
    rw [h2] at o a ⊢
    have op := sub_ok o (i := 7) (j := 40) (by omega) (by simp)
    have oc := sub_ok o (i := 40) (j := 72) (by omega) (by simp)
    have sc := sub_read o (i := 40) (j := 72) (by simp)
    have sp := sub_read o (i := 7) (j := 40) (by simp)
    rw [a] at sc sp
    rw [← h3] at sc
    have oq := sub_ok op (i := 1) (j := 33) (by omega) (by simp [Slice.sub])
    have sq := sub_read op (i := 1) (j := 33) (by simp [Slice.sub])
    rw [sp] at sq
    have e : read (w.heap ++ [d]) (if r.pubkey.length = 33 then Slice.sub ⟨w.heap.length, 0, 76, 76⟩ 7 40
        else (Slice.sub ⟨w.heap.length, 0, 76, 76⟩ 7 40).sub 1 33) = r.pubkey := by
      rcases h4 with ⟨l, e⟩ | ⟨l, e⟩
      · rw [if_pos l, sp, ← e]
      · rw [if_neg (by omega), sq, e, List.take_of_length_le (by simp [h2]), List.drop_drop]
    have := I.addShare [d] ⟨if r.pubkey.length = 33 then Slice.sub ⟨w.heap.length, 0, 76, 76⟩ 7 40
        else (Slice.sub ⟨w.heap.length, 0, 76, 76⟩ 7 40).sub 1 33, Slice.sub ⟨w.heap.length, 0, 76, 76⟩ 40 72, r.curveType⟩
      (by intro t ht; simp only [Share.cells, List.mem_cons, List.not_mem_nil, or_false] at ht
          rcases ht with rfl | rfl
          · split
            · exact op
            · exact oq
          · exact oc)
      (by intro t ht; simp only [Share.cells, List.mem_cons, List.not_mem_nil, or_false] at ht
          rcases ht with rfl | rfl
          · split <;> exact Nat.le_refl _
          · exact Nat.le_refl _)
    unfold Share.view at this
    simp only [e, sc] at this
    exact this

/-! ### One operation -/

theorem publicKey_inv {w : World} {v : Values} (I : Inv w v) {i : Nat} {k : Key} (hk : w.keys[i]? = some k) :
    Inv (w.addKey (.ok (KeyMem.getPublicKey E w.heap k))) (v.addKey false (.ok (OwKeychain.getPublicKey E (k.view w.heap)))) := by
  obtain ⟨b, hb⟩ := I.get hk
  have hm := List.mem_of_getElem? hk
  unfold KeyMem.getPublicKey OwKeychain.getPublicKey
  have ep : (k.view w.heap).isPrivate = k.isPrivate := rfl
  rw [ep]
  cases hp : k.isPrivate with
  | false =>
    have b0 : b = false := by
      cases b with
      | false => rfl
      | true =>
        have := I.seeds _ (List.mem_of_getElem? hb) rfl
        rw [ep, hp] at this
        cases this
    rw [b0] at hb
    have hf := I.free i k _ hk hb
    have := I.addKey [] k false (fun t ht => (I.ok t (mem_key_cells hm ht)).ext) (fun t ht => Or.inr (mem_key_cells hm ht)) (by simp)
      (fun _ => ⟨Or.inr hf, fun t ht => hf t (mem_key_cells hm ht)⟩)
    simp only [List.append_nil] at this
    exact this
  | true =>
    simp only [Bool.not_true, Bool.false_eq_true, if_false]
    have ev : (k.view w.heap).key = read w.heap k.key := rfl
    have ec : (k.view w.heap).curveType = k.curveType := rfl
    rw [ev, ec]
    generalize E.mulBaseG (typeChoose E.ids k.curveType) (read w.heap k.key) = p
    have o := alloc_ok w.heap [] p
    have a := alloc_read w.heap [] p
    simp only [List.append_nil] at o a
    have := I.addKey [p] { k with key := ⟨w.heap.length, 0, p.length, p.length⟩, isPrivate := false } false
      (by intro t ht; simp only [Key.cells, List.mem_cons, List.not_mem_nil, or_false] at ht
          rcases ht with rfl | rfl | rfl
          · exact (I.ok _ (mem_key_cells hm (by simp [Key.cells]))).ext
          · exact (I.ok _ (mem_key_cells hm (by simp [Key.cells]))).ext
          · exact o)
      (by intro t ht; simp only [Key.cells, List.mem_cons, List.not_mem_nil, or_false] at ht
          rcases ht with rfl | rfl | rfl
          · exact Or.inr (mem_key_cells hm (by simp [Key.cells]))
          · exact Or.inr (mem_key_cells hm (by simp [Key.cells]))
          · exact Or.inl (Nat.le_refl _))
      (by simp)
      (by intro _
          refine ⟨Or.inl (Nat.le_refl _), ?_⟩
          intro t ht; simp only [Key.cells, List.mem_cons, List.not_mem_nil, or_false] at ht ⊢
          have h1 := (I.ok k.parentFP (mem_key_cells hm (by simp [Key.cells]))).2
          have h2 := (I.ok k.chainCode (mem_key_cells hm (by simp [Key.cells]))).2
          rcases ht with rfl | rfl | rfl
          · exact behind_arr (by simp only; omega)
          · exact behind_arr (by simp only; omega)
          · exact behind_self _)
    have hv : Key.view (w.heap ++ [p]) { k with key := ⟨w.heap.length, 0, p.length, p.length⟩, isPrivate := false } =
        { k.view w.heap with key := p, isPrivate := false } := by
      unfold Key.view
      simp only [a]
      rw [read_ext (I.ok k.parentFP (mem_key_cells hm (by simp [Key.cells]))).2,
        read_ext (I.ok k.chainCode (mem_key_cells hm (by simp [Key.cells]))).2]
    rw [hv] at this
    exact this

theorem exec_inv {w : World} {v : Values} (I : Inv w v) (grow : Nat → Nat → Nat) (o : Op) (hc : Careful v o) :
    Inv (exec E grow w o) (step E v o) := by
  cases o with
  | root seed c => exact root_inv E I seed c
  | owDecode text => exact owDecode_inv E I text
  | privateChild k i =>
    simp only [exec, step]
    cases hk : w.keys[k]? with
    | none => rw [I.none hk]; exact I
    | some x =>
      obtain ⟨b, hb⟩ := I.get hk
      rw [hb]
      simp only
      unfold KeyMem.genPrivateChild
      cases OwKeychain.genPrivateChild E (x.view w.heap) i with
      | err => exact I
      | panic => exact I
      | ok r => exact fresh_inv I r
  | publicChild k i =>
    simp only [exec, step]
    cases hk : w.keys[k]? with
    | none => rw [I.none hk]; exact I
    | some x =>
      obtain ⟨b, hb⟩ := I.get hk
      rw [hb]
      simp only
      unfold KeyMem.genPublicChild
      cases OwKeychain.genPublicChild E (x.view w.heap) i with
      | err => exact I
      | panic => exact I
      | ok r => exact fresh_inv I r
  | publicKey k =>
    simp only [exec, step]
    cases hk : w.keys[k]? with
    | none => rw [I.none hk]; exact I
    | some x =>
      obtain ⟨b, hb⟩ := I.get hk
      rw [hb]
      exact publicKey_inv E I hk
  | privateBytes k =>
    simp only [exec, step]
    cases hk : w.keys[k]? with
    | none => exact I
    | some x =>
      obtain ⟨b, hb⟩ := I.get hk
      simp only [privateKeyBytes]
      cases hp : x.isPrivate with
      | false => exact I
      | true =>
        have b0 : b = false := by
          cases b with
          | false => rfl
          | true => exact absurd hb (hc _)
        rw [b0] at hb
        exact I.give (I.ok _ (mem_key_cells (List.mem_of_getElem? hk) (by simp [Key.cells]))) (I.free k x _ hk hb)
  | publicBytes k =>
    simp only [exec, step]
    cases hk : w.keys[k]? with
    | none => exact I
    | some x =>
      obtain ⟨b, hb⟩ := I.get hk
      simp only [publicKeyBytes]
      cases hp : x.isPrivate with
      | false =>
        have b0 : b = false := by
          cases b with
          | false => rfl
          | true =>
            have := I.seeds _ (List.mem_of_getElem? hb) rfl
            have ep : (x.view w.heap).isPrivate = x.isPrivate := rfl
            rw [ep, hp] at this
            cases this
        rw [b0] at hb
        exact I.give (I.ok _ (mem_key_cells (List.mem_of_getElem? hk) (by simp [Key.cells]))) (I.free k x _ hk hb)
      | true =>
        simp only [alloc, if_true]
        generalize E.mulBaseG (typeChoose E.ids x.curveType) (read w.heap x.key) = p
        have o := alloc_ok w.heap [] p
        simp only [List.append_nil] at o
        exact (I.extend [p]).give o (fun t ht => behind_arr (by have := (I.ok t ht).2; simp only; omega))
  | chainDecode text => exact chainDecode_inv E I grow text
  | sharePubkey s => exact absurd hc id
  | bytes b spare =>
    simp only [exec, step]
    refine (I.extend [b ++ List.replicate spare 0]).give ⟨⟨Nat.le_add_right _ _, ?_⟩, by simp⟩
      (fun t ht => behind_arr (by have := (I.ok t ht).2; simp only; omega))
    simp only [array_append_new, List.length_append, List.length_replicate]
    omega
  | append b d =>
    simp only [exec, step]
    cases hb : w.bytes[b]? with
    | none => exact I
    | some s =>
      have hs := List.mem_of_getElem? hb
      obtain ⟨⟨vs, as⟩, bs⟩ := I.bytes s hs
      refine (I.append grow hs d).give ⟨(valid_append vs as).1, (valid_append vs as).2⟩ (fun t ht => ?_)
      unfold Mem.append
      split
      · intro e
        rcases bs t ht e with h | h | h
        · exact Or.inl h
        · right; left; simp only; omega
        · exact Or.inr (Or.inr h)
      · exact behind_arr (by have := (I.ok t ht).2; simp only; omega)
  | address b a =>
    simp only [exec, step]
    cases hb : w.bytes[b]? with
    | none => exact I
    | some s =>
      simp only
      rcases AddrMem.addressEncode_heap E.H grow (h := w.heap) (s := s) (a := a) with ⟨h1, h2⟩ | ⟨_, _, c, _, h4⟩
      · have e : (AddrMem.addressEncode E.H grow w.heap s a).2 = w.heap ++ (AddrMem.addressEncode E.H grow w.heap s a).2.drop w.heap.length := by
          conv_lhs => rw [← List.take_append_drop w.heap.length (AddrMem.addressEncode E.H grow w.heap s a).2]
          congr 1
          apply List.ext_getElem
          · rw [List.length_take]; omega
          · intro i hi1 hi2
            have := h2 i hi2
            unfold array at this
            rw [List.getD_eq_getElem?_getD, List.getD_eq_getElem?_getD, List.getElem?_eq_getElem (by omega), List.getElem?_eq_getElem hi2] at this
            simpa using this
        rw [e]
        exact I.extend _
      · rw [h4]
        exact I.append grow (List.mem_of_getElem? hb) c

theorem inv_empty : Inv World.empty ⟨[], []⟩ := by
  refine ⟨rfl, rfl, ?_, ?_, ?_, ?_⟩ <;> simp [World.empty, World.cells]

theorem run_inv (grow : Nat → Nat → Nat) (ops : List Op) :
    ∀ {w : World} {v : Values}, Inv w v → CarefulFrom E v ops → Inv (ops.foldl (exec E grow) w) (ops.foldl (step E) v) := by
  induction ops with
  | nil => exact fun I _ => I
  | cons o os ih => exact fun I h => ih (exec_inv E I grow o h.1) h.2

end Verif.KeyMem
