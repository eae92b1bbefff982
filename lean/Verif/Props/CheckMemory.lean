import Verif.Lemmas.CheckMemory
import Verif.Props.BtcAddress

/-! C127: `EncodeCheck` called by several goroutines at the same time. -/

namespace Verif
open Verif.Spec Verif.Btc Verif.Mem Verif.CheckMem

/-! ## C127 -/

theorem CheckMem.encodeCheck_total (H : Hashes) (p q : Bytes) : ∃ a, Btc.encodeCheck H p q = .ok a ∧ IsBase58Check H Btc.alphabet p q a := by
  obtain ⟨t, h1, h2, _⟩ := C01_base58_roundtrip _ alphabet_ok (p ++ q ++ (H.hash .doubleSha256 (p ++ q)).take 4)
  exact ⟨t, h1, h2⟩

/-- C127: whatever the calls and the schedule are, a call that has made `3 * (len(prefix) + len(hash)) + 13` steps has returned. -/
theorem C127_returns (H : Hashes) (grow : Nat → Nat → Nat) (h : Heap) (args : List (Slice × Slice)) (schedule : List Nat) (i : Nat) (p q : Slice)
    (hi : args[i]? = some (p, q)) (hs : 3 * (p.len + q.len) + 13 ≤ schedule.count i) :
    ∃ t, result (run H grow (init h args) schedule) i = some t := by
  have hc : (init h args).calls[i]? = some ⟨p, q, .start⟩ := by simp [init, hi]
  obtain ⟨c, h1, _, _, h4⟩ := run_rank (H := H) (grow := grow) i schedule _ _ hc trivial
  have h0 : rank p q c.stage = 0 := by
    simp only [rank] at h4 ⊢
    omega
  obtain ⟨pre, hash, st⟩ := c
  unfold result
  rw [h1]
  cases st with
  | done t => exact ⟨t, rfl⟩
  | _ => simp only [rank] at h0; omega

/-- C127, prefixes without spare capacity for the hash (in particular the prefixes of the predefined networks, which are literals): any number of calls, on
slices that may share memory in any way, in any schedule. Every call that returns has returned the Base58Check text of the prefix and the hash it was given,
and no array that existed before is changed.
Missing: prefixes with spare capacity, for which it is false. -/
theorem C127_schedules_partial (H : Hashes) (grow : Nat → Nat → Nat) (h : Heap) (args : List (Slice × Slice))
    (ok : ∀ a ∈ args, Valid h a.1 ∧ a.1.arr < h.length ∧ Valid h a.2 ∧ a.2.arr < h.length ∧ a.1.cap < a.1.len + a.2.len) (schedule : List Nat) :
    (∀ i p q t, args[i]? = some (p, q) → result (run H grow (init h args) schedule) i = some t →
      ∃ a, t = .ok a ∧ IsBase58Check H Btc.alphabet (read h p) (read h q) a) ∧
    (∀ a < h.length, array (run H grow (init h args) schedule).heap a = array h a) := by
  have I := inv_run (grow := grow) ok schedule (inv_init (H := H) h args)
  refine ⟨?_, I.old⟩
  intro i p q t hi hr
  unfold result at hr
  split at hr
  · rename_i pre hash t' hc
    have he : (pre, hash) = (p, q) := by
      have : (((run H grow (init h args) schedule).calls.map fun c => (c.pre, c.hash)))[i]? = some (pre, hash) := by
        rw [List.getElem?_map, hc]; rfl
      rw [I.args_eq, hi] at this
      exact (Option.some.inj this).symm
    cases he
    have g := I.good i _ hc
    simp only [Good] at g
    obtain ⟨a, e1, e2⟩ := encodeCheck_total H (read h p) (read h q)
    exact ⟨a, by rw [← Option.some.inj hr, g, e1], e2⟩
  · cases hr

/-- C127 fails for a prefix with room for the hash behind it: of two calls with this prefix, the first may return the address of the other's hash (and
then not an address of its own, if the hashes are different). -/
theorem C127_shared_prefix_violated (H : Hashes) (grow : Nat → Nat → Nat) (h : Heap) (p q₁ q₂ : Slice) (vp : Valid h p) (ap : p.arr < h.length)
    (v1 : Valid h q₁) (v2 : Valid h q₂) (n1 : q₁.arr ≠ p.arr) (n2 : q₂.arr ≠ p.arr) (el : q₁.len = q₂.len) (room : p.len + q₁.len ≤ p.cap) :
    ∃ schedule a, result (run H grow (init h [(p, q₁), (p, q₂)]) schedule) 0 = some (.ok a) ∧
      IsBase58Check H Btc.alphabet (read h p) (read h q₂) a ∧
      (read h q₁ ≠ read h q₂ → ¬ IsBase58Check H Btc.alphabet (read h p) (read h q₁) a) := by
  have lp := read_length vp
  have l1 := read_length v1
  have l2 := read_length v2
  obtain ⟨vp1, vp2⟩ := vp
  -- both calls copy their hash behind the prefix, then the first goes on
  let h1 := write h p.arr (p.off + p.len) (read h q₁)
  let h2 := write h p.arr (p.off + p.len) (read h q₂)
  let d : Slice := { p with len := p.len + q₁.len }
  have a1 : array h1 p.arr = patch (array h p.arr) (p.off + p.len) (read h q₁) := by simp only [h1]; rw [array_write ap, if_pos rfl]
  have hh : ∀ a, a ≠ p.arr → array h1 a = array h a := by
    intro a ha; simp only [h1]; rw [array_write ap, if_neg ha]
  have vp' : Valid h1 p := ⟨vp1, by rw [a1, patch_length (by omega)]; exact vp2⟩
  have v2' : Valid h1 q₂ := by unfold Valid; rw [hh _ n2]; exact v2
  have r2 : read h1 q₂ = read h q₂ := by unfold Mem.read; rw [hh _ n2]
  have e12 : write h1 p.arr (p.off + p.len) (read h q₂) = h2 := by
    simp only [h1, h2]
    exact write_over ap (by omega) (by omega)
  have vd : Valid h2 d := by
    refine ⟨room, ?_⟩
    simp only [h2, d]; rw [array_write ap, if_pos rfl, patch_length (by omega)]; exact vp2
  have rd : read h2 d = read h p ++ read h q₂ := by
    simp only [Mem.read, h2, d]
    rw [array_write ap, if_pos rfl]
    have := patch_prefix (b := array h p.arr) (d := read h q₂) (p := p.off + p.len) (o := p.off) (by omega) (by omega)
    rw [Nat.add_sub_cancel_left, l2] at this
    rw [el]
    exact this
  obtain ⟨n, hf⟩ := steps_finish (H := H) (grow := grow) (pre := p) (hash := q₁) vd (by simpa [h2, d] using ap)
  obtain ⟨a, ea, ia⟩ := encodeCheck_total H (read h p) (read h q₂)
  refine ⟨List.replicate (q₁.len + 2) 0 ++ (List.replicate (q₂.len + 2) 1 ++ List.replicate n 0), a, ?_, ia, ?_⟩
  · have s1 : run H grow (init h [(p, q₁), (p, q₂)]) (List.replicate (q₁.len + 2) 0) = ⟨h1, [⟨p, q₁, .hashing d []⟩, ⟨p, q₂, .start⟩]⟩ := by
      rw [run_alone 0 _ _ ⟨p, q₁, .start⟩ rfl, show (init h [(p, q₁), (p, q₂)]).heap = h from rfl, steps_join ⟨vp1, vp2⟩ ap v1 n1 room]
      rfl
    have s2 : run H grow ⟨h1, [⟨p, q₁, .hashing d []⟩, ⟨p, q₂, .start⟩]⟩ (List.replicate (q₂.len + 2) 1) =
        ⟨h2, [⟨p, q₁, .hashing d []⟩, ⟨p, q₂, .hashing { p with len := p.len + q₂.len } []⟩]⟩ := by
      rw [run_alone 1 _ _ ⟨p, q₂, .start⟩ rfl]
      simp only
      rw [steps_join vp' (by simpa [h1] using ap) v2' n2 (by omega), r2, e12]
      rfl
    rw [run_append, run_append, s1, s2, run_alone 0 _ _ ⟨p, q₁, .hashing d []⟩ rfl]
    simp only
    rw [hf, rd]
    have : Base58.encode Btc.alphabet (read h p ++ read h q₂ ++ (H.hash .doubleSha256 (read h p ++ read h q₂)).take 4) = .ok a := ea
    simp only [result, this, List.set_cons_zero, List.getElem?_cons_zero]
  · intro ne ia'
    have e1 := (Addr.encode_iff alphabet_ok _ _).mpr ia
    have e2 := (Addr.encode_iff alphabet_ok _ _).mpr ia'
    obtain ⟨t, x1, _, x3⟩ := C01_base58_roundtrip _ alphabet_ok (read h p ++ read h q₂ ++ (H.hash .doubleSha256 (read h p ++ read h q₂)).take 4)
    obtain ⟨t', y1, _, y3⟩ := C01_base58_roundtrip _ alphabet_ok (read h p ++ read h q₁ ++ (H.hash .doubleSha256 (read h p ++ read h q₁)).take 4)
    rw [e1] at x1
    rw [e2] at y1
    cases x1
    cases y1
    rw [x3] at y3
    have := Res.ok.inj y3
    rw [List.append_assoc, List.append_assoc] at this
    have := List.append_cancel_left this
    have := congrArg (List.take q₁.len) this
    rw [List.take_append_of_le_length (by omega), List.take_append_of_le_length (by omega), List.take_of_length_le (by omega),
      List.take_of_length_le (by omega)] at this
    exact ne this.symm

/-- C127 also fails for one call alone when the prefix has room behind it: the text is right, but the bytes of the caller's array behind the prefix are
overwritten with the hash. -/
theorem C127_neighbour_violated (H : Hashes) (grow : Nat → Nat → Nat) (h : Heap) (p q : Slice) (vp : Valid h p) (ap : p.arr < h.length)
    (vq : Valid h q) (nq : q.arr ≠ p.arr) (room : p.len + q.len ≤ p.cap) :
    ∃ n a, result (run H grow (init h [(p, q)]) (List.replicate n 0)) 0 = some (.ok a) ∧ IsBase58Check H Btc.alphabet (read h p) (read h q) a ∧
      read (run H grow (init h [(p, q)]) (List.replicate n 0)).heap ⟨p.arr, p.off + p.len, q.len, q.len⟩ = read h q := by
  have lp := read_length vp
  have lq := read_length vq
  have vp' := vp
  obtain ⟨vp1, vp2⟩ := vp'
  let h2 := write h p.arr (p.off + p.len) (read h q)
  let d : Slice := { p with len := p.len + q.len }
  have a2 : array h2 p.arr = patch (array h p.arr) (p.off + p.len) (read h q) := by simp only [h2]; rw [array_write ap, if_pos rfl]
  have vd : Valid h2 d := ⟨room, by simp only [d]; rw [a2, patch_length (by omega)]; exact vp2⟩
  have rd : read h2 d = read h p ++ read h q := by
    simp only [Mem.read, d]
    rw [a2]
    have := patch_prefix (b := array h p.arr) (d := read h q) (p := p.off + p.len) (o := p.off) (by omega) (by omega)
    rw [Nat.add_sub_cancel_left, lq] at this
    exact this
  have ad : d.arr < h2.length := by simpa [h2, d] using ap
  obtain ⟨n, hf⟩ := steps_finish (H := H) (grow := grow) (pre := p) (hash := q) vd ad
  obtain ⟨a, ea, ia⟩ := encodeCheck_total H (read h p) (read h q)
  have ea : Base58.encode Btc.alphabet (read h p ++ read h q ++ (H.hash .doubleSha256 (read h p ++ read h q)).take 4) = .ok a := ea
  refine ⟨n + (q.len + 2), a, ?_, ia, ?_⟩
  · rw [run_alone 0 _ _ ⟨p, q, .start⟩ rfl, show (init h [(p, q)]).heap = h from rfl, Function.iterate_add_apply, steps_join vp ap vq nq room, hf, rd]
    simp only [result, ea, init, List.map_cons, List.map_nil, List.set_cons_zero, List.getElem?_cons_zero]
  · rw [run_alone 0 _ _ ⟨p, q, .start⟩ rfl, show (init h [(p, q)]).heap = h from rfl, Function.iterate_add_apply, steps_join vp ap vq nq room, hf]
    simp only
    rw [read_append_other vd (by intro _; right; left; show p.off + p.len + q.len ≤ p.off + (p.len + q.len); omega) (by simpa [h2] using ap)]
    simp only [Mem.read]
    rw [a2]
    have := patch_self (b := array h p.arr) (d := read h q) (p := p.off + p.len) (by omega)
    rw [lq] at this
    exact this

/-- The hypotheses of the theorems above are met: two hashes; a prefix without spare capacity, and one in an array with room for a hash. -/
example : let h : Heap := [[0x00], List.replicate 20 1, List.replicate 20 2, 0x05 :: List.replicate 24 0]
    (∀ a ∈ [((⟨0, 0, 1, 1⟩ : Slice), (⟨1, 0, 20, 20⟩ : Slice)), (⟨0, 0, 1, 1⟩, ⟨2, 0, 20, 20⟩)],
      Valid h a.1 ∧ a.1.arr < h.length ∧ Valid h a.2 ∧ a.2.arr < h.length ∧ a.1.cap < a.1.len + a.2.len) ∧
    Valid h ⟨3, 0, 1, 25⟩ ∧ (1 : Nat) + 20 ≤ 25 ∧ read h ⟨1, 0, 20, 20⟩ ≠ read h ⟨2, 0, 20, 20⟩ := by
  intro h
  unfold Valid
  decide +kernel

end Verif
