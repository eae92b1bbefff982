import Verif.Props.Verge

/-! C54: requests of Verge and Vollar that are accepted but cannot be read back. -/

namespace Verif
open Verif.Spec

namespace Verge

theorem takeN_length {n : Nat} {b x r : Bytes} (h : Btc.takeN n b = .ok (x, r)) : x.length = n := by
  unfold Btc.takeN at h
  split at h
  · cases h
  · cases h
    simp only [List.length_take]
    omega

theorem readIn_length {b r : Bytes} {i : TxIn} (h : readIn b = .ok (i, r)) : i.txid.length = 32 := by
  unfold readIn at h
  obtain ⟨⟨txid, b1⟩, h1, h⟩ := Res.bind_eq_ok.mp h
  obtain ⟨_, _, h⟩ := Res.bind_eq_ok.mp h
  obtain ⟨_, _, h⟩ := Res.bind_eq_ok.mp h
  simp only at h
  split at h
  · cases h
  obtain ⟨_, _, h⟩ := Res.bind_eq_ok.mp h
  cases h
  exact takeN_length h1

theorem readMany_all {α : Type} {f : Bytes → Res (α × Bytes)} {p : α → Prop} (hf : ∀ b x r, f b = .ok (x, r) → p x) :
    ∀ (n : Nat) (b : Bytes) (l : List α) (r : Bytes), readMany f n b = .ok (l, r) → l.length = n ∧ ∀ x ∈ l, p x
  | 0, b, l, r, h => by
    cases h
    simp
  | n + 1, b, l, r, h => by
    rw [readMany] at h
    obtain ⟨⟨x, b1⟩, h1, h⟩ := Res.bind_eq_ok.mp h
    obtain ⟨⟨xs, b2⟩, h2, h⟩ := Res.bind_eq_ok.mp h
    cases h
    obtain ⟨e1, e2⟩ := readMany_all hf n _ _ _ h2
    refine ⟨by simp [e1], ?_⟩
    intro y hy
    rcases List.mem_cons.mp hy with rfl | hy
    · exact hf _ _ _ h1
    · exact e2 y hy

theorem zip_ids {p : Bytes → Prop} : ∀ (is : List TxIn) (ls : List Bytes), (∀ i ∈ is, p i.txid) → ∀ i ∈ List.zipWith withLock is ls, p i.txid
  | [], _, _, i, hi => by simp at hi
  | _ :: _, [], _, i, hi => by simp at hi
  | a :: is, l :: ls, h, i, hi => by
    rw [List.zipWith_cons_cons] at hi
    rcases List.mem_cons.mp hi with rfl | hi
    · exact h a (by simp)
    · exact zip_ids is ls (fun j hj => h j (by simp [hj])) i hi

theorem decode_bounds {text : Bytes} {t : TxStruct} {locks : List Bytes} (h : decodeRaw text = .ok (t, locks)) :
    t.ins.length < 256 ∧ t.outs.length < 256 ∧ ∀ i ∈ t.ins, i.txid.length = 32 := by
  unfold decodeRaw at h
  split at h
  · cases h
  split at h
  · cases h
  obtain ⟨_, _, h⟩ := Res.bind_eq_ok.mp h
  obtain ⟨_, _, h⟩ := Res.bind_eq_ok.mp h
  obtain ⟨_, _, h⟩ := Res.bind_eq_ok.mp h
  obtain ⟨⟨n, _⟩, _, h⟩ := Res.bind_eq_ok.mp h
  obtain ⟨⟨ins, b⟩, h1, h⟩ := Res.bind_eq_ok.mp h
  obtain ⟨⟨m, _⟩, _, h⟩ := Res.bind_eq_ok.mp h
  obtain ⟨⟨outs, _⟩, h2, h⟩ := Res.bind_eq_ok.mp h
  obtain ⟨_, _, h⟩ := Res.bind_eq_ok.mp h
  simp only at h
  split at h
  · cases h
  split at h
  · cases h
  cases h
  obtain ⟨e1, e2⟩ := readMany_all (p := fun i : TxIn => i.txid.length = 32) (fun _ _ _ => readIn_length) _ _ _ _ h1
  obtain ⟨e3, -⟩ := readMany_all (p := fun _ => True) (fun _ _ _ _ => trivial) _ _ _ _ h2
  have := n.toNat_lt
  have := m.toNat_lt
  refine ⟨?_, ?_, zip_ids (p := fun b => b.length = 32) _ _ e2⟩
  · simp only [List.length_zipWith]
    omega
  · simp only
    omega

/-- Ids of 32 bytes have texts of 64 characters. -/
theorem ids_length {ins : List Vin} {is : List TxIn} (h : List.Forall₂ (fun v i => Hex.decode v.txid = .ok i.txid.reverse) ins is)
    (hl : ∀ i ∈ is, i.txid.length = 32) : ∀ v ∈ ins, v.txid.length = 64 := by
  induction h with
  | nil => simp
  | cons h1 _ ih =>
    intro v hv
    rcases List.mem_cons.mp hv with rfl | hv
    · have := Hex.decode_length _ _ h1
      rw [List.length_reverse, hl _ (by simp)] at this
      omega
    · exact ih (fun i hi => hl i (by simp [hi])) v hv

end Verge

theorem Vollar.decode_bounds {text : Bytes} {t : Vollar.TxStruct} {locks : List Bytes} (h : Vollar.decodeRaw text = .ok (t, locks)) :
    t.ins.length < 256 ∧ t.outs.length < 256 ∧ ∀ i ∈ t.ins, i.txid.length = 32 := by
  unfold Vollar.decodeRaw at h
  split at h
  · cases h
  split at h
  · cases h
  obtain ⟨_, _, h⟩ := Res.bind_eq_ok.mp h
  obtain ⟨_, _, h⟩ := Res.bind_eq_ok.mp h
  obtain ⟨_, _, h⟩ := Res.bind_eq_ok.mp h
  obtain ⟨⟨n, _⟩, _, h⟩ := Res.bind_eq_ok.mp h
  obtain ⟨⟨ins, b⟩, h1, h⟩ := Res.bind_eq_ok.mp h
  obtain ⟨⟨m, _⟩, _, h⟩ := Res.bind_eq_ok.mp h
  obtain ⟨⟨outs, _⟩, h2, h⟩ := Res.bind_eq_ok.mp h
  simp only at h
  split at h
  · cases h
  split at h
  · cases h
  cases h
  obtain ⟨e1, e2⟩ := Verge.readMany_all (p := fun i : Verge.TxIn => i.txid.length = 32) (fun _ _ _ => Verge.readIn_length) _ _ _ _ h1
  obtain ⟨e3, -⟩ := Verge.readMany_all (p := fun _ => True) (fun _ _ _ _ => trivial) _ _ _ _ h2
  have := n.toNat_lt
  have := m.toNat_lt
  exact ⟨by simp only; omega, by simp only; omega, e2⟩

/-- Where C54 fails, for every request outside `C54_verge_partial` with an id of another length or with more than 255 inputs or outputs: it is accepted, but nothing that its text is decoded to (if it is
decoded at all) has the ids and as many outputs as were asked for. -/
theorem C54_verge_limits_violated (H : Hashes) (now : UInt32) (ins : List Verge.Vin) (outs : List Verge.Vout) (lockTime interval : UInt32)
    (text : Bytes) (hashes : List Bytes) (_h : Verge.createEmpty H now ins outs lockTime interval = .ok (text, hashes))
    (hout : (∃ v ∈ ins, v.txid.length ≠ 64) ∨ 256 ≤ ins.length ∨ 256 ≤ outs.length) :
    ¬ ∃ t locks, Verge.decodeRaw text = .ok (t, locks) ∧ List.Forall₂ (fun v i => Hex.decode v.txid = .ok i.txid.reverse) ins t.ins ∧
      t.outs.length = outs.length := by
  rintro ⟨t, locks, hd, hids, ho⟩
  obtain ⟨b1, b2, b3⟩ := Verge.decode_bounds hd
  rcases hout with ⟨v, hv, hne⟩ | hn | hn
  · exact hne (Verge.ids_length hids b3 v hv)
  · rw [hids.length_eq] at hn; omega
  · omega

/-- The same for Vollar. -/
theorem C54_vollar_limits_violated (H : Hashes) (ins : List Verge.Vin) (outs : List Verge.Vout) (text : Bytes) (hashes : List Bytes)
    (_h : Vollar.createEmpty H ins outs = .ok (text, hashes)) (hout : (∃ v ∈ ins, v.txid.length ≠ 64) ∨ 256 ≤ ins.length ∨ 256 ≤ outs.length) :
    ¬ ∃ t locks, Vollar.decodeRaw text = .ok (t, locks) ∧ List.Forall₂ (fun v i => Hex.decode v.txid = .ok i.txid.reverse) ins t.ins ∧
      t.outs.length = outs.length := by
  rintro ⟨t, locks, hd, hids, ho⟩
  obtain ⟨b1, b2, b3⟩ := Vollar.decode_bounds hd
  rcases hout with ⟨v, hv, hne⟩ | hn | hn
  · exact hne (Verge.ids_length hids b3 v hv)
  · rw [hids.length_eq] at hn; omega
  · omega

-- ids of one byte are accepted
example : (Verge.createEmpty toyHashes 1000 [⟨asc "01", 0, Hex.encode (p2pkhScript (List.replicate 20 6))⟩] [⟨Verge.demo, 5⟩] 0 60).isOk = true ∧
    (Vollar.createEmpty toyHashes [⟨asc "01", 0, Hex.encode (p2pkhScript (List.replicate 20 6))⟩] [⟨Vollar.demo, 5⟩]).isOk = true := by decide +kernel

-- so are 256 inputs
example : (Verge.createEmpty toyHashes 1000 (List.replicate 256 ⟨asc "01", 0, []⟩) [] 0 60).isOk = true := by decide +kernel
example : (Vollar.createEmpty toyHashes (List.replicate 256 ⟨asc "01", 0, []⟩) []).isOk = true := by decide +kernel

end Verif
