import Verif.Model.FilenetMemory
import Verif.Props.Filenet

/-! C131: creating a Filenet transfer leaves the caller's payments as they were. C132: the transfer does not depend on the order in which the payments are
listed. -/

namespace Verif
open Verif.Filenet Verif.Spec.Filenet

namespace Filenet

theorem window_length {arr : List Vout} {lo hi : Nat} (h1 : lo ≤ hi) (h2 : hi ≤ arr.length) : (window arr lo hi).length = hi - lo := by
  unfold window; simp; omega

theorem split_window {arr : List Vout} {lo hi : Nat} (h1 : lo ≤ hi) : arr.take lo ++ window arr lo hi ++ arr.drop hi = arr := by
  unfold window
  rw [show arr.take lo = (arr.take hi).take lo by rw [List.take_take, Nat.min_eq_left h1], List.take_append_drop, List.take_append_drop]

theorem window_put {arr l : List Vout} {lo hi : Nat} (h1 : lo ≤ hi) (h2 : hi ≤ arr.length) (hl : l.length = hi - lo) :
    window (arr.take lo ++ l ++ arr.drop hi) lo hi = l := by
  unfold window
  rw [List.take_left' (by simp; omega), List.drop_left' (by simp; omega)]

theorem put_put {arr l : List Vout} {lo hi : Nat} (h1 : lo ≤ hi) (h2 : hi ≤ arr.length) (hl : l.length = hi - lo) :
    (arr.take lo ++ l ++ arr.drop hi).take lo ++ l ++ (arr.take lo ++ l ++ arr.drop hi).drop hi = arr.take lo ++ l ++ arr.drop hi := by
  have e1 : (arr.take lo).length = lo := by simp; omega
  have e2 : (arr.take lo ++ l).length = hi := by rw [List.length_append, e1]; omega
  rw [List.drop_left' e2, List.append_assoc (arr.take lo) l (arr.drop hi), List.take_left' e1, ← List.append_assoc]

/-- The array after the call. -/
theorem createMem_mem (H : Hashes) (S : Sorter) (time : UInt64) (in_ : Bytes) (arr : List Vout) (lo hi : Nat) :
    (createMem H S time in_ arr lo hi).2 = arr ∨
      ((∃ b, decodeAddress in_ = .ok b) ∧ (createMem H S time in_ arr lo hi).2 = arr.take lo ++ S.run (window arr lo hi) ++ arr.drop hi) := by
  unfold createMem newTxMem
  split
  · exact .inl rfl
  · cases hd : decodeAddress in_ with
    | panic => exact .inl rfl
    | err => exact .inl rfl
    | ok b =>
      dsimp only
      split
      · exact .inl rfl
      · exact .inr ⟨⟨b, rfl⟩, rfl⟩

theorem createMem_sorted (H : Hashes) (S : Sorter) (time : UInt64) (in_ b : Bytes) (arr : List Vout) (lo hi : Nat)
    (hb : decodeAddress in_ = .ok b) (hne : window arr lo hi ≠ []) :
    (createMem H S time in_ arr lo hi).2 = arr.take lo ++ S.run (window arr lo hi) ++ arr.drop hi := by
  have hin : in_ ≠ [] := by
    rintro rfl
    have : decodeAddress [] = .err := by decide +kernel
    rw [this] at hb; cases hb
  unfold createMem newTxMem
  rw [if_neg hin, hb]
  dsimp only
  rw [if_neg (by simpa using hne)]

/-- Two sorters agree on payments to different addresses, whatever the order they are given in. -/
theorem sort_unique (S S' : Sorter) {l l' : List Vout} (hp : l.Perm l') (hd : (l.map Vout.address).Nodup) : S.run l = S'.run l' := by
  refine List.Perm.eq_of_pairwise (le := fun a b => ¬ b.address < a.address) ?_ (S.sorted l) (S'.sorted l')
    (((S.perm l).trans hp).trans (S'.perm l').symm)
  intro a b ha hb h1 h2
  have e : a.address = b.address := List.le_antisymm (List.not_lt.mp h1) (List.not_lt.mp h2)
  have ha' : a ∈ l := (S.perm l).mem_iff.mp ha
  have hb' : b ∈ l := hp.mem_iff.mpr ((S'.perm l').mem_iff.mp hb)
  exact List.inj_on_of_nodup_map hd ha' hb' e

theorem sort_sorted (S : Sorter) {l : List Vout} (hs : l.Pairwise fun a b => a.address < b.address) : S.run l = l := by
  have hd : (l.map Vout.address).Nodup := by
    rw [List.Nodup, List.pairwise_map]
    exact hs.imp fun h e => by rw [e] at h; exact List.lt_irrefl _ h
  refine List.Perm.eq_of_pairwise (le := fun a b => ¬ b.address < a.address) ?_ (S.sorted l) ?_ (S.perm l)
  · intro a b ha hb h1 h2
    have e : a.address = b.address := List.le_antisymm (List.not_lt.mp h1) (List.not_lt.mp h2)
    exact List.inj_on_of_nodup_map hd ((S.perm l).mem_iff.mp ha) hb e
  · exact hs.imp fun h => List.lt_asymm h

end Filenet

/-! ### C131: the caller's list of payments -/

/-- The result of the call on a slice is the one of the list of payments it shows (so the theorems of C52, C122 and C132 apply to it). -/
theorem C131_result (H : Hashes) (S : Sorter) (time : UInt64) (in_ : Bytes) (arr : List Vout) (lo hi : Nat) (h1 : lo ≤ hi) (h2 : hi ≤ arr.length) :
    (createMem H S time in_ arr lo hi).1 = createEmpty H S time in_ (window arr lo hi) := by
  unfold createMem newTxMem createEmpty newTx
  split
  · rfl
  · cases decodeAddress in_ with
    | panic => rfl
    | err => rfl
    | ok b =>
      simp only [Res.bind_ok]
      split
      · rfl
      · have hl : (S.run (window arr lo hi)).length = hi - lo := by rw [(S.perm _).length_eq, window_length h1 h2]
        dsimp only
        rw [window_put h1 h2 hl, (S.perm _).length_eq]

/-- C131, outside the slice nothing changes, and inside it the payments are only moved. -/
theorem C131_elsewhere (H : Hashes) (S : Sorter) (time : UInt64) (in_ : Bytes) (arr : List Vout) (lo hi : Nat) (h1 : lo ≤ hi) (h2 : hi ≤ arr.length) :
    (createMem H S time in_ arr lo hi).2.length = arr.length ∧
      (∀ i, i < lo ∨ hi ≤ i → (createMem H S time in_ arr lo hi).2[i]? = arr[i]?) ∧
      (window (createMem H S time in_ arr lo hi).2 lo hi).Perm (window arr lo hi) := by
  have hl : (S.run (window arr lo hi)).length = hi - lo := by rw [(S.perm _).length_eq, window_length h1 h2]
  rcases createMem_mem H S time in_ arr lo hi with e | ⟨_, e⟩ <;> rw [e]
  · exact ⟨rfl, fun _ _ => rfl, .refl _⟩
  · refine ⟨by simp [hl]; omega, ?_, ?_⟩
    · rintro i (hi' | hi')
      · rw [List.append_assoc, List.getElem?_append_left (by simp; omega), List.getElem?_take_of_lt hi']
      · rw [List.getElem?_append_right (by simp [hl]; omega), List.getElem?_drop]
        congr 1
        simp [hl]; omega
    · rw [window_put h1 h2 hl]; exact S.perm _

/-- C131, restricted to payments listed in strictly ascending order of their addresses, or a sender that is no address: the caller's array is as before.
Missing: other lists, see `C131_reordered_violated`. -/
theorem C131_kept_partial (H : Hashes) (S : Sorter) (time : UInt64) (in_ : Bytes) (arr : List Vout) (lo hi : Nat) (h1 : lo ≤ hi)
    (h : ((window arr lo hi).Pairwise fun a b => a.address < b.address) ∨ ∀ b, decodeAddress in_ ≠ .ok b) :
    (createMem H S time in_ arr lo hi).2 = arr := by
  rcases createMem_mem H S time in_ arr lo hi with e | ⟨⟨b, hb⟩, e⟩ <;> rw [e]
  rcases h with h | h
  · rw [sort_sorted S h, split_window h1]
  · exact absurd hb (h b)

/-- C131 is violated: whenever the sender is an address and the payments are not in ascending order, the caller's slice is reordered, also when the call
then fails. -/
theorem C131_reordered_violated (H : Hashes) (S : Sorter) (time : UInt64) (in_ b : Bytes) (arr : List Vout) (lo hi : Nat) (h1 : lo ≤ hi)
    (h2 : hi ≤ arr.length) (hb : decodeAddress in_ = .ok b) (h : ¬ (window arr lo hi).Pairwise fun a b => ¬ b.address < a.address) :
    window (createMem H S time in_ arr lo hi).2 lo hi ≠ window arr lo hi := by
  have hne : window arr lo hi ≠ [] := by
    intro e; rw [e] at h; exact h .nil
  have hl : (S.run (window arr lo hi)).length = hi - lo := by rw [(S.perm _).length_eq, window_length h1 h2]
  rw [createMem_sorted H S time in_ b arr lo hi hb hne, window_put h1 h2 hl]
  intro e
  exact h (e ▸ S.sorted (window arr lo hi))

/-- A request with two payments out of order; the second amount is 0, so the call fails as well. -/
example : (∃ b, decodeAddress (asc "3YZ92rqUpjYzXDrkL41Fz89LUMYRysktyWkayNcqBnrfBXwW1mCN9QL") = .ok b) ∧
    (¬ (window [⟨asc "B", 1⟩, ⟨asc "A", 0⟩] 0 2).Pairwise fun a b => ¬ b.address < a.address) ∧
    createMem toyHashes insertionSorter 5 (asc "3YZ92rqUpjYzXDrkL41Fz89LUMYRysktyWkayNcqBnrfBXwW1mCN9QL") [⟨asc "B", 1⟩, ⟨asc "A", 0⟩] 0 2 =
      (.err, [⟨asc "A", 0⟩, ⟨asc "B", 1⟩]) := by
  refine ⟨?_, by decide +kernel, by decide +kernel⟩
  have : (decodeAddress (asc "3YZ92rqUpjYzXDrkL41Fz89LUMYRysktyWkayNcqBnrfBXwW1mCN9QL")).isOk = true := by decide +kernel
  cases h : decodeAddress (asc "3YZ92rqUpjYzXDrkL41Fz89LUMYRysktyWkayNcqBnrfBXwW1mCN9QL") with
  | ok b => exact ⟨b, rfl⟩
  | err => rw [h] at this; cases this
  | panic => rw [h] at this; cases this

/-- C131, what is left is stable: with payments to different addresses, a second call on the array that the first call left returns the same result and
leaves the array alone. -/
theorem C131_repeat (H : Hashes) (S S' : Sorter) (time : UInt64) (in_ : Bytes) (arr : List Vout) (lo hi : Nat) (h1 : lo ≤ hi) (h2 : hi ≤ arr.length)
    (hd : ((window arr lo hi).map Vout.address).Nodup) :
    createMem H S' time in_ (createMem H S time in_ arr lo hi).2 lo hi = createMem H S time in_ arr lo hi := by
  have key : ∀ S₁ S₂ : Sorter, ∀ a : List Vout, hi ≤ a.length → S₁.run (window a lo hi) = S₂.run (window arr lo hi) →
      (window a lo hi).Perm (window arr lo hi) → createEmpty H S₁ time in_ (window a lo hi) = createEmpty H S₂ time in_ (window arr lo hi) := by
    intro S₁ S₂ a _ e hp
    unfold createEmpty newTx
    rw [e, hp.length_eq]
  obtain ⟨hlen, hout, hperm⟩ := C131_elsewhere H S time in_ arr lo hi h1 h2
  have hs : S'.run (window (createMem H S time in_ arr lo hi).2 lo hi) = S.run (window arr lo hi) :=
    sort_unique S' S hperm (((hperm.map _).nodup_iff).mpr hd)
  have e1 : (createMem H S' time in_ (createMem H S time in_ arr lo hi).2 lo hi).1 = (createMem H S time in_ arr lo hi).1 := by
    rw [C131_result H S' time in_ _ lo hi h1 (by omega), C131_result H S time in_ arr lo hi h1 h2]
    exact key S' S _ (by omega) hs hperm
  refine Prod.ext e1 ?_
  have hl : (S.run (window arr lo hi)).length = hi - lo := by rw [(S.perm _).length_eq, window_length h1 h2]
  rcases createMem_mem H S' time in_ (createMem H S time in_ arr lo hi).2 lo hi with e | ⟨⟨b, hb⟩, e⟩
  · exact e
  · rw [e, hs]
    by_cases hne : window arr lo hi = []
    · have : (createMem H S time in_ arr lo hi).2 = arr := by
        rcases createMem_mem H S time in_ arr lo hi with e | ⟨_, e⟩
        · exact e
        · rw [e, hne, show S.run [] = [] from (S.perm []).eq_nil]
          conv_rhs => rw [← split_window (arr := arr) h1, hne]
      rw [this, hne, show S.run [] = [] from (S.perm []).eq_nil]
      conv_rhs => rw [← split_window (arr := arr) h1, hne]
    · have e2 := createMem_sorted H S time in_ b arr lo hi hb hne
      rw [e2, put_put h1 h2 hl]

example : ((window [⟨asc "B", 1⟩, ⟨asc "A", 7⟩, ⟨asc "C", 2⟩] 0 2).map Vout.address).Nodup := by decide +kernel

/-! ### C132: the order of the payments -/

/-- C132, restricted to payments to different addresses: two lists with the same payments give the same answer, whatever sorting algorithm is used.
Missing: two payments to one address, see `C132_same_address_violated`. -/
theorem C132_order_partial (H : Hashes) (S S' : Sorter) (time : UInt64) (in_ : Bytes) (outs outs' : List Vout) (hp : outs.Perm outs')
    (hd : (outs.map Vout.address).Nodup) : createEmpty H S time in_ outs = createEmpty H S' time in_ outs' := by
  unfold createEmpty newTx
  rw [sort_unique S S' hp hd, hp.length_eq]

example : [(⟨asc "B", 1⟩ : Vout), ⟨asc "A", 7⟩].Perm [⟨asc "A", 7⟩, ⟨asc "B", 1⟩] ∧ ([(⟨asc "B", 1⟩ : Vout), ⟨asc "A", 7⟩].map Vout.address).Nodup :=
  ⟨.swap .., by decide +kernel⟩

/-- C132 is violated: two payments of different amounts to one address, listed in the two possible orders, give two different transactions. The hypothesis
on the sorting algorithm (two entries with equal addresses stay where they are) is what `sort.Sort` does with two entries. -/
theorem C132_same_address_violated (H : Hashes) (S : Sorter) (time : UInt64) (in_ f address a : Bytes) (m n : UInt64)
    (hf : decodeAddress in_ = .ok f) (ha : decodeAddress address = .ok a) (hm : m ≠ 0) (hn : n ≠ 0) (hmn : m ≠ n)
    (hS : ∀ x y : Vout, x.address = y.address → S.run [x, y] = [x, y]) :
    ∃ text hash text' hash', createEmpty H S time in_ [⟨address, m⟩, ⟨address, n⟩] = .ok (text, hash) ∧
      createEmpty H S time in_ [⟨address, n⟩, ⟨address, m⟩] = .ok (text', hash') ∧ text ≠ text' := by
  have hempty : decodeAddress [] = .err := by decide +kernel
  have hin : in_ ≠ [] := by rintro rfl; rw [hempty] at hf; cases hf
  have hadr : address ≠ [] := by rintro rfl; rw [hempty] at ha; cases ha
  have run : ∀ x y : UInt64, x ≠ 0 → y ≠ 0 → newTx S time in_ [⟨address, x⟩, ⟨address, y⟩] =
      .ok (f ++ leBytes 8 2 ++ leBytes 8 (0 + x + y).toNat ++ leBytes 8 time.toNat ++ (a ++ leBytes 8 x.toNat ++ (a ++ leBytes 8 y.toNat))) := by
    intro x y hx hy
    unfold newTx
    rw [if_neg hin, hf, Res.bind_ok, if_neg (by simp), hS ⟨address, x⟩ ⟨address, y⟩ rfl]
    simp [payments, hadr, hx, hy, ha, Res.bind_ok]
  unfold createEmpty
  rw [run m n hm hn, run n m hn hm, Res.bind_ok, Res.bind_ok]
  refine ⟨_, _, _, _, rfl, rfl, ?_⟩
  intro e
  have e := Hex.encode_inj e
  have l : ∀ v, (leBytes 8 v).length = 8 := fun v => by simp
  have e2 := (List.append_inj e (by simp)).2
  rw [List.append_assoc, List.append_assoc] at e2
  have e3 := (List.append_inj ((List.append_cancel_left_eq ..).mp e2) (by simp)).1
  have e4 := congrArg leNat e3
  rw [leNat_leBytes_of_lt (m.toNat_lt), leNat_leBytes_of_lt (n.toNat_lt)] at e4
  exact hmn (UInt64.toNat_inj.mp e4)

/-- Insertion sort, which `sort.Sort` uses for fewer than twelve entries, has that property. -/
example : ∀ x y : Vout, x.address = y.address → insertionSorter.run [x, y] = [x, y] := by
  intro x y h
  have : ¬ y.address < x.address := by rw [h]; exact List.lt_irrefl _
  simp [insertionSorter, List.insertionSort, List.orderedInsert, this]

end Verif
