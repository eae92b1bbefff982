import Verif.Model.BtcMemory
import Verif.Lemmas.Memory
import Verif.Lemmas.BtcTx

/-! Changing the id of one input in the raw bytes of a transaction. -/

namespace Verif.BtcMem
open Verif Verif.Btc Verif.Mem

/-- A step of a decoder that looks only at what it consumes and at the number of bytes after it. -/
def Local {α : Type} (f : Bytes → Res (α × Bytes)) (b : Bytes) (x : α) (r : Bytes) : Prop :=
  ∃ c, b = c ++ r ∧ ∀ r', r'.length = r.length → f (c ++ r') = .ok (x, r')

theorem local_takeN {n : Nat} {b x r : Bytes} (h : takeN n b = .ok (x, r)) : Local (takeN n) b x r ∧ b = x ++ r ∧ x.length = n := by
  unfold takeN at h
  split at h
  · cases h
  · cases h
    refine ⟨⟨b.take n, (List.take_append_drop n b).symm, fun r' _ => takeN_append _ _ (by simp; omega)⟩, (List.take_append_drop n b).symm, by simp; omega⟩

theorem local_take1 {b r : Bytes} {x : UInt8} (h : take1 b = .ok (x, r)) : Local take1 b x r := by
  cases b with
  | nil => cases h
  | cons y b => cases h; exact ⟨[x], rfl, fun _ _ => rfl⟩

theorem local_seq {sp : Nat} {b x r : Bytes} (h : takeSequence sp b = .ok (x, r)) : Local (takeSequence sp) b x r := by
  unfold takeSequence at h
  split at h
  · split at h <;> cases h
  · cases h
    refine ⟨b.take 4, (List.take_append_drop 4 b).symm, fun r' _ => ?_⟩
    have hl : (b.take 4).length = 4 := by simp; omega
    unfold takeSequence
    rw [if_neg (by rw [List.length_append]; omega)]
    rw [List.take_left' hl, List.drop_left' hl]

theorem Local.bind {α β : Type} {f : Bytes → Res (α × Bytes)} {g : α → Bytes → Res (β × Bytes)} {b r s : Bytes} {x : α} {y : β}
    (h1 : Local f b x r) (h2 : Local (g x) r y s) : Local (fun b => f b >>= fun p => g p.1 p.2) b y s := by
  obtain ⟨c1, e1, k1⟩ := h1
  obtain ⟨c2, e2, k2⟩ := h2
  refine ⟨c1 ++ c2, by rw [e1, e2, List.append_assoc], fun r' hr => ?_⟩
  simp only
  rw [List.append_assoc, k1 _ (by rw [e2]; simp [hr])]
  exact k2 r' hr

theorem Local.map {α β : Type} {f : Bytes → Res (α × Bytes)} {b r : Bytes} {x : α} (h : Local f b x r) (g : α → β) :
    Local (fun b => f b >>= fun p => .ok (g p.1, p.2)) b (g x) r := by
  obtain ⟨c, e, k⟩ := h
  refine ⟨c, e, fun r' hr => ?_⟩
  simp only
  rw [k r' hr]
  rfl

theorem local_unlock {w : Bool} {sp : Nat} {n : UInt8} {b r : Bytes} {u : Unlock} (h : decodeUnlock w sp n b = .ok (u, r)) :
    Local (decodeUnlock w sp n) b u r := by
  unfold Local
  unfold decodeUnlock at h ⊢
  split at h
  · cases h
    rename_i h0
    exact ⟨[], rfl, fun r' _ => by rw [if_pos h0]; rfl⟩
  rename_i h0
  simp only [if_neg h0]
  split at h
  · rename_i h1
    simp only [if_pos h1]
    split at h
    · cases h
    rename_i hw
    simp only [if_neg hw]
    obtain ⟨⟨s, b'⟩, h2, h⟩ := Res.bind_eq_ok.mp h
    cases h
    exact (local_takeN h2).1.map fun s => Unlock.mk .p2wpkh s [] []
  rename_i h1
  simp only [if_neg h1]
  split at h
  · rename_i h2
    simp only [if_pos h2]
    split at h
    · cases h
    rename_i hw
    simp only [if_neg hw]
    obtain ⟨⟨s, b'⟩, h2, h⟩ := Res.bind_eq_ok.mp h
    cases h
    exact (local_takeN h2).1.map fun s => Unlock.mk .multi (0x23 :: s) [] []
  rename_i h2
  simp only [if_neg h2]
  split at h
  · rename_i h3
    simp only [if_pos h3]
    obtain ⟨⟨s, b'⟩, h2, h⟩ := Res.bind_eq_ok.mp h
    cases h
    exact (local_takeN h2).1.map fun s => Unlock.mk .p2pkh [] s []
  rename_i h3
  simp only [if_neg h3]
  split at h
  · cases h
  rename_i hw
  simp only [if_neg hw]
  split at h
  · rename_i h4
    simp only [if_pos h4]
    split at h
    · cases h
    rename_i l2
    simp only at h
    split at h
    · cases h
    split at h
    · split at h <;> cases h
    rename_i l3
    cases h
    refine ⟨b.take (leNat (b.take 2) + 2), (List.take_append_drop _ b).symm, fun r' hr => ?_⟩
    have hr : r'.length = b.length - (leNat (b.take 2) + 2) := by rw [hr, List.length_drop]
    have hl : (b.take (leNat (b.take 2) + 2)).length = leNat (b.take 2) + 2 := by rw [List.length_take]; omega
    have h2' : (b.take (leNat (b.take 2) + 2) ++ r').take 2 = b.take 2 := by
      rw [List.take_append_of_le_length (by omega), List.take_take, Nat.min_eq_left (by omega)]
    rw [h2']
    generalize leNat (b.take 2) = n at *
    rw [if_neg (by rw [List.length_append]; omega), if_neg (by rw [List.length_append]; omega), if_neg (by rw [List.length_append]; omega),
      List.take_left' hl, List.drop_left' hl]
  rename_i h4
  simp only [if_neg h4]
  split at h
  · cases h
  rename_i h5
  simp only [if_neg h5]
  obtain ⟨⟨s, b'⟩, h2, h⟩ := Res.bind_eq_ok.mp h
  cases h
  exact (local_takeN h2).1.map fun s => Unlock.mk .multi [] [] s

/-- One input: the first 32 bytes are the id, the next four the output number; the rest of the input does not depend on the id. -/
theorem local_in {w : Bool} {sp : Nat} {b r : Bytes} {i : TxIn} (h : decodeIn w sp b = .ok (i, r)) :
    ∃ c, b = i.txid ++ (i.vout ++ (c ++ r)) ∧ i.txid.length = 32 ∧ i.vout.length = 4 ∧
      ∀ (y r' : Bytes), y.length = 32 → r'.length = r.length → decodeIn w sp (y ++ (i.vout ++ (c ++ r'))) = .ok ({ i with txid := y }, r') := by
  unfold decodeIn at h
  obtain ⟨⟨txid, b1⟩, h1, h⟩ := Res.bind_eq_ok.mp h
  obtain ⟨⟨vout, b2⟩, h2, h⟩ := Res.bind_eq_ok.mp h
  obtain ⟨⟨n, b3⟩, h3, h⟩ := Res.bind_eq_ok.mp h
  obtain ⟨⟨u, b4⟩, h4, h⟩ := Res.bind_eq_ok.mp h
  obtain ⟨⟨s, b5⟩, h5, h⟩ := Res.bind_eq_ok.mp h
  cases h
  simp only at *
  obtain ⟨_, e1, l1⟩ := local_takeN h1
  obtain ⟨_, e2, l2⟩ := local_takeN h2
  obtain ⟨c3, e3, k3⟩ := local_take1 h3
  obtain ⟨c4, e4, k4⟩ := local_unlock h4
  obtain ⟨c5, e5, k5⟩ := local_seq h5
  refine ⟨c3 ++ (c4 ++ c5), by rw [e1, e2, e3, e4, e5]; simp, l1, l2, fun y r' hy hr => ?_⟩
  unfold decodeIn
  rw [takeN_append _ _ hy]
  simp only [Res.bind_ok]
  rw [takeN_append _ _ l2]
  simp only [Res.bind_ok, List.append_assoc]
  rw [k3 _ (by rw [e4, e5]; simp [hr])]
  simp only [Res.bind_ok]
  rw [k4 _ (by rw [e5]; simp [hr])]
  simp only [Res.bind_ok]
  rw [k5 _ hr]
  rfl

/-! ### All inputs -/

/-- Replace the id of one input. -/
def setId (y : Bytes) (i : TxIn) : TxIn := { i with txid := y }

theorem positions_shift (w : Bool) (sp : Nat) : ∀ (n k p : Nat) (b : Bytes), positions w sp n (k + p) b = (positions w sp n p b).map (k + ·)
  | 0, _, _, _ => rfl
  | n + 1, k, p, b => by
    unfold positions
    split
    · rw [Nat.add_assoc, positions_shift w sp n k]
      rfl
    · rfl

theorem patch_append_right {a b d : Bytes} {p : Nat} : patch (a ++ b) (a.length + p) d = a ++ patch b p d := by
  unfold patch
  rw [List.take_append, List.take_of_length_le (by omega), Nat.add_sub_cancel_left, List.append_assoc a, List.append_assoc a, Nat.add_assoc, List.drop_append,
    List.drop_eq_nil_of_le (by omega), Nat.add_sub_cancel_left, List.nil_append, List.append_assoc]

/-- Where the ids are, and what changing one of them does. -/
theorem decodeIns_patch (w : Bool) (sp : Nat) : ∀ (n : Nat) (b : Bytes) (ins : List TxIn) (r : Bytes), decodeIns w sp n b = .ok (ins, r) →
    (positions w sp n 0 b).length = ins.length ∧ ins.length = n ∧ r.length ≤ b.length ∧
    ∀ (j : Nat) (i : TxIn) (p : Nat), ins[j]? = some i → (positions w sp n 0 b)[j]? = some p →
      i.txid.length = 32 ∧ i.vout.length = 4 ∧ p + 36 ≤ b.length - r.length ∧ (b.drop p).take 32 = i.txid ∧ (b.drop (p + 32)).take 4 = i.vout ∧
      ∀ y r' : Bytes, y.length = 32 → r'.length = r.length →
        decodeIns w sp n (patch (b.take (b.length - r.length)) p y ++ r') = .ok (ins.modify j (setId y), r') ∧
        positions w sp n 0 (patch (b.take (b.length - r.length)) p y ++ r') = positions w sp n 0 b
  | 0, b, ins, r, h => by
    cases h
    simp [positions]
  | n + 1, b, ins, r, h => by
    unfold decodeIns at h
    obtain ⟨⟨i0, b1⟩, h1, h⟩ := Res.bind_eq_ok.mp h
    obtain ⟨⟨is, b2⟩, h2, h⟩ := Res.bind_eq_ok.mp h
    cases h
    simp only at *
    obtain ⟨c, e, l1, l2, k⟩ := local_in h1
    obtain ⟨q1, q2, q3, q4⟩ := decodeIns_patch w sp n b1 is r h2
    have hpos : positions w sp (n + 1) 0 b = 0 :: (positions w sp n 0 b1).map ((b.length - b1.length) + ·) := by
      rw [← positions_shift]
      conv_lhs => unfold positions
      rw [h1]
      simp
    have hb : b.length - b1.length = 36 + c.length := by rw [e]; simp only [List.length_append]; omega
    have hbl : b.length = 36 + c.length + b1.length := by rw [e]; simp only [List.length_append]; omega
    rw [hpos]
    refine ⟨by simp [q1], by simp [q2], by omega, ?_⟩
    intro j i p hi hp
    have hsplit : b.take (b.length - r.length) = i0.txid ++ (i0.vout ++ (c ++ b1.take (b1.length - r.length))) := by
      have e' : b = (i0.txid ++ (i0.vout ++ c)) ++ b1 := by rw [e]; simp
      have hfl : (i0.txid ++ (i0.vout ++ c)).length = 36 + c.length := by simp only [List.length_append]; omega
      conv_lhs => rw [e']
      rw [List.take_append, List.take_of_length_le (by simp only [List.length_append] at hfl ⊢; omega)]
      have : (i0.txid ++ (i0.vout ++ c) ++ b1).length - r.length - (i0.txid ++ (i0.vout ++ c)).length = b1.length - r.length := by
        rw [List.length_append, hfl]; omega
      rw [this]
      simp
    cases j with
    | zero =>
      simp only [List.getElem?_cons_zero, Option.some.injEq] at hi hp
      subst hi hp
      refine ⟨l1, l2, by omega, ?_, ?_, ?_⟩
      · rw [e, List.drop_zero, ← l1, List.take_left]
      · rw [e, Nat.zero_add, ← l1, List.drop_left, ← l2, List.take_left]
      · intro y r' hy hr
        rw [hsplit]
        have : patch (i0.txid ++ (i0.vout ++ (c ++ b1.take (b1.length - r.length)))) 0 y =
            y ++ (i0.vout ++ (c ++ b1.take (b1.length - r.length))) := by
          unfold patch
          rw [hy, List.take_zero, Nat.zero_add, ← l1, List.drop_left]
          rfl
        rw [this]
        -- The other inputs are decoded as before.
        have same := (decodeIns_same w sp n b1 is r h2).2 r' hr
        have kk := k y (b1.take (b1.length - r.length) ++ r') hy (by simp only [List.length_append, List.length_take]; omega)
        refine ⟨?_, ?_⟩
        · unfold decodeIns
          simp only [List.append_assoc]
          rw [kk]
          simp only [Res.bind_ok]
          rw [same.1]
          rfl
        · conv_lhs => unfold positions
          simp only [List.append_assoc]
          rw [kk]
          simp only
          have hl : 0 + ((y ++ (i0.vout ++ (c ++ (b1.take (b1.length - r.length) ++ r')))).length - (b1.take (b1.length - r.length) ++ r').length) =
              (b.length - b1.length) + 0 := by simp only [List.length_append]; omega
          rw [hl, positions_shift, same.2]
    | succ j =>
      simp only [List.getElem?_cons_succ, List.getElem?_map, Option.map_eq_some_iff] at hi hp
      obtain ⟨p', hp', hpe⟩ := hp
      obtain ⟨m1, m2, m3, m4, m5, m6⟩ := q4 j i p' hi hp'
      have e' : b = (i0.txid ++ (i0.vout ++ c)) ++ b1 := by rw [e]; simp
      have hfl : (i0.txid ++ (i0.vout ++ c)).length = 36 + c.length := by simp only [List.length_append]; omega
      rw [hb] at hpe
      refine ⟨m1, m2, by omega, ?_, ?_, ?_⟩
      · rw [← hpe, e', ← hfl, List.drop_length_add_append]
        exact m4
      · rw [← hpe, Nat.add_assoc, e', ← hfl, List.drop_length_add_append]
        exact m5
      · intro y r' hy hr
        have hs2 : b.take (b.length - r.length) = (i0.txid ++ (i0.vout ++ c)) ++ b1.take (b1.length - r.length) := by
          rw [hsplit]; simp
        rw [hs2, ← hpe, ← hfl, patch_append_right]
        have hpl : (patch (b1.take (b1.length - r.length)) p' y).length = b1.length - r.length := by
          rw [patch_length (by simp only [List.length_take]; omega), List.length_take]; omega
        have kk := k i0.txid (patch (b1.take (b1.length - r.length)) p' y ++ r') l1 (by rw [List.length_append, hpl]; omega)
        have m := m6 y r' hy hr
        refine ⟨?_, ?_⟩
        · unfold decodeIns
          simp only [List.append_assoc]
          rw [kk]
          simp only [Res.bind_ok]
          rw [m.1]
          rfl
        · conv_lhs => unfold positions
          simp only [List.append_assoc]
          rw [kk]
          simp only
          have hl : 0 + ((i0.txid ++ (i0.vout ++ (c ++ (patch (b1.take (b1.length - r.length)) p' y ++ r')))).length -
              (patch (b1.take (b1.length - r.length)) p' y ++ r').length) = (b.length - b1.length) + 0 := by simp only [List.length_append]; omega
          rw [hl, positions_shift, m.2, hb]
where
  decodeIns_same (w : Bool) (sp : Nat) : ∀ (n : Nat) (b : Bytes) (ins : List TxIn) (r : Bytes), decodeIns w sp n b = .ok (ins, r) →
      r.length ≤ b.length ∧ ∀ r' : Bytes, r'.length = r.length → decodeIns w sp n (b.take (b.length - r.length) ++ r') = .ok (ins, r') ∧
        positions w sp n 0 (b.take (b.length - r.length) ++ r') = positions w sp n 0 b
    | 0, b, ins, r, h => by
      cases h
      exact ⟨Nat.le_refl _, fun r' _ => ⟨by simp [decodeIns], rfl⟩⟩
    | n + 1, b, ins, r, h => by
      unfold decodeIns at h
      obtain ⟨⟨i0, b1⟩, h1, h⟩ := Res.bind_eq_ok.mp h
      obtain ⟨⟨is, b2⟩, h2, h⟩ := Res.bind_eq_ok.mp h
      cases h
      simp only at *
      obtain ⟨c, e, l1, l2, k⟩ := local_in h1
      obtain ⟨q3, q4⟩ := decodeIns_same w sp n b1 is r h2
      have hbl : b.length = 36 + c.length + b1.length := by rw [e]; simp only [List.length_append]; omega
      refine ⟨by omega, fun r' hr => ?_⟩
      have hsplit : b.take (b.length - r.length) = i0.txid ++ (i0.vout ++ (c ++ b1.take (b1.length - r.length))) := by
        have e' : b = (i0.txid ++ (i0.vout ++ c)) ++ b1 := by rw [e]; simp
        have hfl : (i0.txid ++ (i0.vout ++ c)).length = 36 + c.length := by simp only [List.length_append]; omega
        conv_lhs => rw [e']
        rw [List.take_append, List.take_of_length_le (by simp only [List.length_append] at hfl ⊢; omega)]
        have : (i0.txid ++ (i0.vout ++ c) ++ b1).length - r.length - (i0.txid ++ (i0.vout ++ c)).length = b1.length - r.length := by
          rw [List.length_append, hfl]; omega
        rw [this]
        simp
      rw [hsplit]
      have kk := k i0.txid (b1.take (b1.length - r.length) ++ r') l1 (by simp only [List.length_append, List.length_take]; omega)
      refine ⟨?_, ?_⟩
      · unfold decodeIns
        simp only [List.append_assoc]
        rw [kk]
        simp only [Res.bind_ok]
        rw [(q4 r' hr).1]
        rfl
      · have hpos : positions w sp (n + 1) 0 b = 0 :: (positions w sp n 0 b1).map ((b.length - b1.length) + ·) := by
          rw [← positions_shift]
          conv_lhs => unfold positions
          rw [h1]
          simp
        rw [hpos]
        conv_lhs => unfold positions
        simp only [List.append_assoc]
        rw [kk]
        simp only
        have hl : 0 + ((i0.txid ++ (i0.vout ++ (c ++ (b1.take (b1.length - r.length) ++ r')))).length - (b1.take (b1.length - r.length) ++ r').length) =
            (b.length - b1.length) + 0 := by simp only [List.length_append]; omega
        rw [hl, positions_shift, (q4 r' hr).2]

theorem decodeWitness_set {seg : Bool} {i i' : TxIn} {b r : Bytes} (h : decodeWitness seg i b = .ok (i', r)) (y : Bytes) :
    decodeWitness seg (setId y i) b = .ok (setId y i', r) ∧ i'.txid = i.txid ∧ i'.vout = i.vout := by
  unfold decodeWitness at h ⊢
  obtain ⟨⟨c, b1⟩, h1, h⟩ := Res.bind_eq_ok.mp h
  rw [h1]
  simp only [Res.bind_ok, setId] at h ⊢
  cases ht : i.inType with
  | empty => simp only [ht] at h ⊢; cases h; simp [ht]
  | p2pkh =>
    simp only [ht] at h ⊢
    split at h
    · cases h
    · rename_i hc
      cases h
      rw [if_neg hc]
      simp [ht]
  | p2wpkh =>
    simp only [ht] at h ⊢
    split at h
    · cases h
    · rename_i hc
      rw [if_neg hc]
      split at h
      · cases h
      · obtain ⟨⟨s, b2⟩, h2, h⟩ := Res.bind_eq_ok.mp h
        cases h
        simp only [h2, Res.bind_ok]
        simp
  | bech32 =>
    simp only [ht] at h ⊢
    split at h
    · cases h
    · rename_i hc
      rw [if_neg hc]
      split at h
      · cases h
      · obtain ⟨⟨s, b2⟩, h2, h⟩ := Res.bind_eq_ok.mp h
        cases h
        simp only [h2, Res.bind_ok]
        simp
  | multi =>
    simp only [ht] at h ⊢
    split at h
    · cases h
    · rename_i hs
      rw [if_neg hs]
      split at h
      · cases h
      · rename_i hc
        rw [if_neg hc]
        obtain ⟨⟨s, b2⟩, h2, h⟩ := Res.bind_eq_ok.mp h
        cases h
        simp only [h2, Res.bind_ok]
        simp

theorem decodeWitnesses_set (seg : Bool) : ∀ (ins ins' : List TxIn) (b r : Bytes), decodeWitnesses seg ins b = .ok (ins', r) →
    ins'.map TxIn.txid = ins.map TxIn.txid ∧ ins'.map TxIn.vout = ins.map TxIn.vout ∧
    ∀ j y, decodeWitnesses seg (ins.modify j (setId y)) b = .ok (ins'.modify j (setId y), r)
  | [], ins', b, r, h => by
    cases h
    exact ⟨rfl, rfl, fun j y => by simp [decodeWitnesses]⟩
  | i :: is, ins', b, r, h => by
    unfold decodeWitnesses at h
    obtain ⟨⟨i', b1⟩, h1, h⟩ := Res.bind_eq_ok.mp h
    obtain ⟨⟨is', b2⟩, h2, h⟩ := Res.bind_eq_ok.mp h
    cases h
    simp only at *
    obtain ⟨w1, w2, w3⟩ := decodeWitnesses_set seg is is' b1 r h2
    have s := decodeWitness_set h1
    refine ⟨by simp [w1, (s []).2.1], by simp [w2, (s []).2.2], fun j y => ?_⟩
    cases j with
    | zero =>
      simp only [List.modify_zero_cons, decodeWitnesses]
      rw [(s y).1]
      simp only [Res.bind_ok, h2]
    | succ j =>
      simp only [List.modify_succ_cons, decodeWitnesses]
      rw [h1]
      simp only [Res.bind_ok, w3 j y]

theorem patch_append_left {a b d : Bytes} {p : Nat} (h : p + d.length ≤ a.length) : patch (a ++ b) p d = patch a p d ++ b := by
  unfold patch
  rw [List.take_append_of_le_length (by omega), List.drop_append_of_le_length (by omega)]
  simp

theorem get_map {α β : Type} {l l' : List α} {f : α → β} (h : l.map f = l'.map f) {j : Nat} {x : α} (hx : l[j]? = some x) :
    ∃ x', l'[j]? = some x' ∧ f x' = f x := by
  have := congrArg (fun m => m[j]?) h
  simp only [List.getElem?_map, hx, Option.map_some] at this
  cases hl : l'[j]? with
  | none => rw [hl] at this; simp at this
  | some x' => rw [hl] at this; exact ⟨x', rfl, (Option.some.inj this).symm⟩

theorem decodeBody_patch {sp : Nat} {seg w : Bool} {v b : Bytes} {t : Tx} (h : decodeBody sp seg w v b = .ok t) :
    ∃ n body, b = n :: body ∧ n ≠ 0 ∧ t.witness = w ∧ (positions w sp t.vins.length 0 body).length = t.vins.length ∧
    ∀ (j : Nat) (i : TxIn) (p : Nat), t.vins[j]? = some i → (positions w sp t.vins.length 0 body)[j]? = some p →
      i.txid.length = 32 ∧ i.vout.length = 4 ∧ p + 36 ≤ body.length ∧ (body.drop p).take 32 = i.txid ∧ (body.drop (p + 32)).take 4 = i.vout ∧
      ∀ y : Bytes, y.length = 32 → decodeBody sp seg w v (n :: patch body p y) = .ok { t with vins := t.vins.modify j (setId y) } ∧
        positions w sp t.vins.length 0 (patch body p y) = positions w sp t.vins.length 0 body := by
  unfold decodeBody at h
  obtain ⟨⟨n, body⟩, h1, h⟩ := Res.bind_eq_ok.mp h
  have hb : b = n :: body := by
    cases b with
    | nil => cases h1
    | cons x b => cases h1; rfl
  simp only at h
  split at h
  · cases h
  rename_i n0
  obtain ⟨⟨ins, b1⟩, h2, h⟩ := Res.bind_eq_ok.mp h
  simp only at h
  obtain ⟨⟨m, b2⟩, h3, h⟩ := Res.bind_eq_ok.mp h
  simp only at h
  split at h
  · cases h
  rename_i m0
  obtain ⟨⟨outs, b3⟩, h4, h⟩ := Res.bind_eq_ok.mp h
  simp only at h
  have hw : ∃ ins' b4, (if w then decodeWitnesses seg ins b3 else .ok (ins, b3)) = .ok (ins', b4) ∧
      (do let (lockTime, b) ← takeN 4 b4
          if b ≠ [] then .err
          else .ok ({ version := v, vins := ins', vouts := outs, lockTime := lockTime, witness := w } : Tx)) = .ok t := by
    cases w with
    | true =>
      simp only [if_true] at h ⊢
      obtain ⟨⟨ins', b4⟩, h5, h⟩ := Res.bind_eq_ok.mp h
      exact ⟨ins', b4, h5, h⟩
    | false => exact ⟨ins, b3, by simp, by simpa using h⟩
  obtain ⟨ins', b4, h5, h⟩ := hw
  obtain ⟨⟨lt, b5⟩, h6, h⟩ := Res.bind_eq_ok.mp h
  simp only at h
  split at h
  · cases h
  rename_i b5e
  have ht := (Res.ok.inj h).symm
  obtain ⟨q1, q2, q3, q4⟩ := decodeIns_patch w sp n.toNat body ins b1 h2
  have hset : ins'.map TxIn.txid = ins.map TxIn.txid ∧ ins'.map TxIn.vout = ins.map TxIn.vout ∧
      ∀ j y, (if w then decodeWitnesses seg (ins.modify j (setId y)) b3 else .ok (ins.modify j (setId y), b3)) = .ok (ins'.modify j (setId y), b4) := by
    cases w with
    | true => exact decodeWitnesses_set seg ins ins' b3 b4 (by simpa using h5)
    | false =>
      simp only [Bool.false_eq_true, if_false] at h5
      cases h5
      exact ⟨rfl, rfl, fun j y => by simp⟩
  have hlen : ins'.length = n.toNat := by
    rw [← q2]; simpa using congrArg List.length hset.1
  have hv : t.vins = ins' := by rw [ht]
  rw [hv, hlen]
  refine ⟨n, body, hb, n0, by rw [ht], by rw [q1, q2], ?_⟩
  intro j i p hi hp
  obtain ⟨i1, g1, g2⟩ := get_map hset.1 hi
  obtain ⟨i2, g3, g4⟩ := get_map hset.2.1 hi
  rw [g1] at g3
  cases g3
  obtain ⟨m1, m2, m3, m4, m5, m6⟩ := q4 j i1 p g1 hp
  refine ⟨by rw [← g2]; exact m1, by rw [← g4]; exact m2, by omega, by rw [m4, g2], by rw [m5, g4], ?_⟩
  intro y hy
  obtain ⟨r1, r2⟩ := m6 y b1 hy rfl
  have hbody : patch body p y = patch (body.take (body.length - b1.length)) p y ++ b1 := by
    have hd : body = body.take (body.length - b1.length) ++ b1 := decodeIns_split w sp n.toNat body ins b1 h2
    conv_lhs => rw [hd]
    exact patch_append_left (by rw [List.length_take]; omega)
  rw [hbody]
  refine ⟨?_, r2⟩
  unfold decodeBody
  have tk : ∀ x, take1 (n :: x) = .ok (n, x) := fun _ => rfl
  rw [tk]
  simp only [Res.bind_ok]
  rw [if_neg n0, r1]
  simp only [Res.bind_ok]
  rw [h3]
  simp only [Res.bind_ok]
  rw [if_neg m0, h4]
  simp only [Res.bind_ok]
  have hs := hset.2.2 j y
  cases w with
  | true =>
    simp only [if_true] at hs ⊢
    rw [hs]
    simp only [Res.bind_ok]
    rw [h6]
    simp only [Res.bind_ok]
    rw [if_neg b5e, ht]
  | false =>
    simp only [Bool.false_eq_true, if_false] at hs ⊢
    have hs := Res.ok.inj hs
    simp only [Prod.mk.injEq] at hs
    rw [hs.1, hs.2, h6]
    simp only [Res.bind_ok]
    rw [if_neg b5e, ht]
where
  decodeIns_split (w : Bool) (sp : Nat) : ∀ (n : Nat) (b : Bytes) (ins : List TxIn) (r : Bytes), decodeIns w sp n b = .ok (ins, r) →
      b = b.take (b.length - r.length) ++ r
    | 0, b, ins, r, h => by cases h; simp
    | n + 1, b, ins, r, h => by
      unfold decodeIns at h
      obtain ⟨⟨i0, b1⟩, h1, h⟩ := Res.bind_eq_ok.mp h
      obtain ⟨⟨is, b2⟩, h2, h⟩ := Res.bind_eq_ok.mp h
      cases h
      simp only at *
      obtain ⟨c, e, _⟩ := local_in h1
      have ih := decodeIns_split w sp n b1 is r h2
      have : ∃ front, b = front ++ r := ⟨i0.txid ++ (i0.vout ++ (c ++ b1.take (b1.length - r.length))), by
        rw [e]; simp only [List.append_assoc]; rw [← ih]⟩
      obtain ⟨front, hf⟩ := this
      rw [hf]
      simp

/-- Where the ids of a transaction are, and what changing one of them does. -/
theorem decodeTx_patch {sp : Nat} {seg : Bool} {b : Bytes} {t : Tx} (h : decodeTx sp seg b = .ok t) :
    let start := if t.witness then 7 else 5
    let ps := positions t.witness sp t.vins.length start (b.drop start)
    ps.length = t.vins.length ∧
    ∀ (j : Nat) (i : TxIn) (p : Nat), t.vins[j]? = some i → ps[j]? = some p →
      i.txid.length = 32 ∧ i.vout.length = 4 ∧ p + 36 ≤ b.length ∧ (b.drop p).take 32 = i.txid ∧ (b.drop (p + 32)).take 4 = i.vout ∧
      ∀ y : Bytes, y.length = 32 → decodeTx sp seg (patch b p y) = .ok { t with vins := t.vins.modify j (setId y) } ∧
        positions t.witness sp t.vins.length start ((patch b p y).drop start) = ps := by
  intro start ps
  unfold decodeTx at h
  obtain ⟨⟨v, b1⟩, h1, h⟩ := Res.bind_eq_ok.mp h
  simp only at h
  obtain ⟨_, e1, l1⟩ := local_takeN h1
  split at h
  · cases h
  rename_i hv
  split at h
  · cases h
  rename_i hl
  -- The front of the transaction, up to the number of inputs.
  have main : ∀ (front body : Bytes) (w : Bool) (n : UInt8), b = front ++ body → t.witness = w → front.length = (if w then 7 else 5) →
      (∀ body', body'.length = body.length → decodeTx sp seg (front ++ body') = decodeBody sp seg w v (n :: body')) →
      (positions w sp t.vins.length 0 body).length = t.vins.length →
      (∀ (j : Nat) (i : TxIn) (p : Nat), t.vins[j]? = some i → (positions w sp t.vins.length 0 body)[j]? = some p →
        i.txid.length = 32 ∧ i.vout.length = 4 ∧ p + 36 ≤ body.length ∧ (body.drop p).take 32 = i.txid ∧ (body.drop (p + 32)).take 4 = i.vout ∧
        ∀ y : Bytes, y.length = 32 → decodeBody sp seg w v (n :: patch body p y) = .ok { t with vins := t.vins.modify j (setId y) } ∧
          positions w sp t.vins.length 0 (patch body p y) = positions w sp t.vins.length 0 body) →
      ps.length = t.vins.length ∧
      ∀ (j : Nat) (i : TxIn) (p : Nat), t.vins[j]? = some i → ps[j]? = some p →
        i.txid.length = 32 ∧ i.vout.length = 4 ∧ p + 36 ≤ b.length ∧ (b.drop p).take 32 = i.txid ∧ (b.drop (p + 32)).take 4 = i.vout ∧
        ∀ y : Bytes, y.length = 32 → decodeTx sp seg (patch b p y) = .ok { t with vins := t.vins.modify j (setId y) } ∧
          positions t.witness sp t.vins.length start ((patch b p y).drop start) = ps := by
    intro front body w n e hw hf hd hn hp
    have hs : start = front.length := by simp only [start]; rw [hw, hf]
    have hps : ps = (positions w sp t.vins.length 0 body).map (start + ·) := by
      simp only [ps]
      rw [← positions_shift, hw, Nat.add_zero, hs, e, List.drop_left]
    rw [hps]
    refine ⟨by rw [List.length_map, hn], ?_⟩
    intro j i p hi hpj
    simp only [List.getElem?_map, Option.map_eq_some_iff] at hpj
    obtain ⟨q, hq, rfl⟩ := hpj
    obtain ⟨m1, m2, m3, m4, m5, m6⟩ := hp j i q hi hq
    refine ⟨m1, m2, by rw [e, List.length_append]; omega, ?_, ?_, ?_⟩
    · rw [e, hs, List.drop_length_add_append]; exact m4
    · rw [e, hs, Nat.add_assoc, List.drop_length_add_append]; exact m5
    · intro y hy
      obtain ⟨r1, r2⟩ := m6 y hy
      rw [e, hs, patch_append_right, hd _ (patch_length (by omega)), List.drop_left]
      refine ⟨r1, ?_⟩
      rw [← r2, hw, ← positions_shift, Nat.add_zero]
  have hdec : ∀ b', b'.length = b1.length → decodeTx sp seg (v ++ b') = (match b' with
      | 0x00 :: w :: r => if w ≠ 0x01 then .err else decodeBody sp seg true v r
      | _ => decodeBody sp seg false v b') := by
    intro b' hb'
    unfold decodeTx
    rw [takeN_append _ _ l1]
    simp only [Res.bind_ok]
    rw [if_neg hv, if_neg (by omega)]
    rfl
  split at h
  · rename_i w r _
    split at h
    · cases h
    rename_i w1
    have w1 : w = 1 := by simpa using w1
    obtain ⟨n, body, f1, f2, f3, f4, f5⟩ := decodeBody_patch h
    rw [f1] at e1 hdec
    refine main (v ++ [0, w, n]) body true n (by rw [e1]; simp) f3 (by simp [l1]) ?_ f4 f5
    intro body' hb'
    have := hdec (0 :: w :: n :: body') (by simp [hb'])
    simp only [List.append_assoc, List.cons_append, List.nil_append]
    rw [this]
    simp [w1]
  · rename_i hne
    obtain ⟨n, body, f1, f2, f3, f4, f5⟩ := decodeBody_patch h
    rw [f1] at e1 hdec
    refine main (v ++ [n]) body false n (by rw [e1]; simp) f3 (by simp [l1]) ?_ f4 f5
    intro body' hb'
    have := hdec (n :: body') (by simp [hb'])
    simp only [List.append_assoc, List.cons_append, List.nil_append]
    rw [this]
    split
    · rename_i w r e
      exact absurd (List.cons.inj e).1 f2
    · rfl

end Verif.BtcMem

namespace Verif.BtcMem
open Verif Verif.Btc Verif.Mem

/-- Writing inside a slice. -/
theorem read_write {h : Heap} {s : Slice} (v : Valid h s) (ha : s.arr < h.length) {p : Nat} {y : Bytes} (hp : p + y.length ≤ s.len) :
    read (write h s.arr (s.off + p) y) s = patch (read h s) p y := by
  obtain ⟨v1, v2⟩ := v
  unfold Mem.read
  rw [array_write ha, if_pos rfl]
  generalize array h s.arr = A at v2
  unfold patch
  rw [List.append_assoc, List.drop_append_of_le_length (by rw [List.length_take]; omega), List.take_append, List.take_append, List.drop_take, List.take_take]
  have e1 : ((A.drop s.off).take (s.off + p - s.off)).length = p := by rw [List.length_take, List.length_drop]; omega
  rw [e1, Nat.add_sub_cancel_left, Nat.min_eq_right (by omega), List.take_take, Nat.min_eq_left (by omega), List.append_assoc]
  congr 1
  congr 1
  · rw [List.take_of_length_le (by omega)]
  · rw [List.drop_take, List.drop_drop]
    congr 1
    · omega
    · congr 1; omega

theorem write_valid {h : Heap} {s t : Slice} (v : Valid h s) (vt : Valid h t) (ha : s.arr < h.length) {p : Nat} {y : Bytes} (hp : p + y.length ≤ s.len) :
    Valid (write h s.arr (s.off + p) y) t := by
  refine ⟨vt.1, ?_⟩
  rw [array_write ha]
  split
  · rename_i e
    rw [patch_length (by have := v.1; have := v.2; omega), ← e]
    exact vt.2
  · exact vt.2

/-- One read of an id. -/
theorem getTxID_step {h : Heap} {raw : Slice} {seg : Bool} {t : Tx} {ins : List Input} (v : Valid h raw) (ha : raw.arr < h.length)
    (ht : decodeTx (raw.cap - raw.len) seg (read h raw) = .ok t) (hi : decodeInputs seg h raw = .ok ins) :
    ins.length = t.vins.length ∧
    (∀ (j : Nat) (i : TxIn) (s : Input), t.vins[j]? = some i → ins[j]? = some s → read h s.vout = i.vout ∧
      (getTxID h s).1 = Hex.encode i.txid.reverse ∧ Valid (getTxID h s).2 raw ∧ raw.arr < (getTxID h s).2.length ∧
      (∀ a, a ≠ raw.arr → array (getTxID h s).2 a = array h a) ∧
      (∃ p, read (getTxID h s).2 raw = patch (read h raw) p i.txid.reverse ∧ ((read h raw).drop p).take 32 = i.txid ∧ p + 36 ≤ (read h raw).length) ∧
      decodeTx (raw.cap - raw.len) seg (read (getTxID h s).2 raw) = .ok { t with vins := t.vins.modify j fun i => setId i.txid.reverse i } ∧
      decodeInputs seg (getTxID h s).2 raw = .ok ins) := by
  have D := decodeTx_patch ht
  simp only at D
  have hl := read_length v
  unfold decodeInputs at hi
  rw [ht] at hi
  simp only [Res.bind_ok] at hi
  have hi := (Res.ok.inj hi).symm
  generalize hps : positions t.witness (raw.cap - raw.len) t.vins.length (if t.witness then 7 else 5)
    (List.drop (if t.witness then 7 else 5) (read h raw)) = ps at D hi
  refine ⟨by rw [hi, List.length_map, D.1], ?_⟩
  intro j i s hj hs
  rw [hi] at hs
  simp only [List.getElem?_map, Option.map_eq_some_iff] at hs
  obtain ⟨p, hp, rfl⟩ := hs
  obtain ⟨m1, m2, m3, m4, m5, m6⟩ := D.2 j i p hj hp
  obtain ⟨r1, r2⟩ := m6 i.txid.reverse (by simp [m1])
  have win : ∀ (g : Heap) (a n : Nat), a + n ≤ raw.len → read g (raw.sub a (a + n)) = ((read g raw).drop a).take n := by
    intro g a n han
    unfold Mem.read Slice.sub
    simp only
    rw [List.drop_take, List.drop_drop, List.take_take, Nat.add_sub_cancel_left, Nat.min_eq_left (by omega)]
  have rid : read h (raw.sub p (p + 32)) = i.txid := by rw [win h p 32 (by omega), m4]
  have hrev : Mem.reverse h (raw.sub p (p + 32)) = write h raw.arr (raw.off + p) i.txid.reverse := by
    unfold Mem.reverse; rw [rid]; rfl
  have hfit : p + i.txid.reverse.length ≤ raw.len := by rw [List.length_reverse]; omega
  have rr : read (write h raw.arr (raw.off + p) i.txid.reverse) raw = patch (read h raw) p i.txid.reverse := read_write v ha hfit
  have hmod : t.vins.modify j (fun i => setId i.txid.reverse i) = t.vins.modify j (setId i.txid.reverse) := by
    apply List.ext_getElem?
    intro k
    rw [List.getElem?_modify, List.getElem?_modify]
    by_cases e : j = k
    · subst e; rw [hj]; rfl
    · simp only [if_neg e]
  unfold getTxID
  simp only [hrev]
  have hid : read (write h raw.arr (raw.off + p) i.txid.reverse) (raw.sub p (p + 32)) = i.txid.reverse := by
    rw [win _ p 32 (by omega), rr]
    have := patch_self (b := read h raw) (d := i.txid.reverse) (p := p) (by omega)
    rw [List.length_reverse, m1] at this
    exact this
  refine ⟨?_, by rw [hid], write_valid v v ha hfit, by simpa using ha, ?_, ⟨p, rr, m4, m3⟩, ?_, ?_⟩
  · have := win h (p + 32) 4 (by omega)
    rw [Nat.add_assoc] at this
    rw [this, m5]
  · intro a hne
    rw [array_write ha, if_neg hne]
  · rw [rr, hmod]
    exact r1
  · unfold decodeInputs
    rw [rr, r1]
    simp only [Res.bind_ok, List.length_modify]
    rw [r2, hi]

end Verif.BtcMem
