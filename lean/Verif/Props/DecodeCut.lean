import Verif.Lemmas.BtcTx
import Verif.Lemmas.BtcVariants
import Verif.Props.BtcTx
import Verif.Props.BtcParse
import Verif.Spec.Cut

/-! C23, exactly: the byte strings on which the decoder of the Bitcoin packages panics. -/

namespace Verif
open Verif.Btc Verif.BtcVariants
open Verif.Spec.Cut

namespace DecodeCut
open BtcParse

theorem takeN_iff {n : Nat} {b x r : Bytes} : takeN n b = .ok (x, r) ↔ b = x ++ r ∧ x.length = n := by
  constructor
  · exact takeN_inv
  · rintro ⟨rfl, h⟩
    exact takeN_append _ _ h

theorem take1_iff {b r : Bytes} {x : UInt8} : take1 b = .ok (x, r) ↔ b = x :: r := by
  constructor
  · exact take1_inv
  · rintro rfl; rfl

theorem seq_iff {spare : Nat} {b x r : Bytes} : takeSequence spare b = .ok (x, r) ↔ b = x ++ r ∧ x.length = 4 := by
  constructor
  · exact takeSequence_inv
  · rintro ⟨rfl, h⟩
    unfold takeSequence
    rw [if_neg (by rw [List.length_append]; omega)]
    simp [← h]

/-- The kind of an input with this unlocking script in a transaction with witness data. -/
def kind (script : Bytes) : InType :=
  if script = [] then .bech32 else if script.length = 23 then .p2wpkh else if script.length = 35 then .multi else .p2pkh

theorem u8_of {n : Nat} (x : UInt8) (h : n = x.toNat) : UInt8.ofNat n = x := by
  subst h; simp

theorem unlock_fwd (spare : Nat) (s r : Bytes) (hs : s.length ≤ 108) :
    ∃ u, decodeUnlock true spare (UInt8.ofNat s.length) (s ++ r) = .ok (u, r) ∧ u.inType = kind s := by
  have ht : (UInt8.ofNat s.length).toNat = s.length := by rw [UInt8.toNat_ofNat']; omega
  have hc : ∀ y : UInt8, UInt8.ofNat s.length = y ↔ s.length = y.toNat := by
    intro y; rw [← UInt8.toNat_inj, ht]
  unfold decodeUnlock kind
  by_cases c0 : s = []
  · subst c0
    exact ⟨_, rfl, rfl⟩
  have c0' : s.length ≠ 0 := fun h => c0 (List.length_eq_zero_iff.mp h)
  rw [if_neg (by rw [hc]; exact c0'), if_neg c0]
  by_cases c1 : s.length = 23
  · rw [if_pos ((hc 0x17).mpr c1), if_pos c1]
    simp only [Bool.not_true, Bool.false_eq_true, if_false]
    rw [takeN_append s r c1]
    exact ⟨_, rfl, rfl⟩
  rw [if_neg (by rw [hc]; exact c1), if_neg c1]
  by_cases c2 : s.length = 35
  · rw [if_pos ((hc 0x23).mpr c2), if_pos c2]
    simp only [Bool.not_true, Bool.false_eq_true, if_false]
    rw [takeN_append s r c2]
    exact ⟨_, rfl, rfl⟩
  rw [if_neg (by rw [hc]; exact c2), if_neg c2, if_pos (by rw [UInt8.le_iff_toNat_le, ht]; exact hs), ht, takeN_append s r rfl]
  exact ⟨_, rfl, rfl⟩

theorem unlock_inv {spare : Nat} {x : UInt8} {b r : Bytes} {u : Unlock} (h : decodeUnlock true spare x b = .ok (u, r)) :
    ∃ s : Bytes, s.length ≤ 108 ∧ x = UInt8.ofNat s.length ∧ b = s ++ r := by
  have key : ∀ (n : Nat) (g : Bytes → Unlock), (do
      let x ← takeN n b
      Res.ok (g x.1, x.2)) = .ok (u, r) → ∃ s : Bytes, s.length = n ∧ b = s ++ r := by
    intro n g h
    obtain ⟨⟨s, b2⟩, k1, k2⟩ := Res.bind_eq_ok.mp h
    cases k2
    obtain ⟨e, l⟩ := takeN_inv k1
    exact ⟨s, l, e⟩
  unfold decodeUnlock at h
  by_cases c0 : x = 0
  · rw [if_pos c0] at h
    cases h; exact ⟨[], by simp, by rw [c0]; rfl, rfl⟩
  rw [if_neg c0] at h
  simp only [Bool.not_true, Bool.false_eq_true, if_false] at h
  by_cases c1 : x = 0x17
  · rw [if_pos c1] at h
    obtain ⟨s, l, e⟩ := key _ (fun s => ⟨.p2wpkh, s, [], []⟩) h
    exact ⟨s, by omega, by rw [c1, l]; rfl, e⟩
  rw [if_neg c1] at h
  by_cases c2 : x = 0x23
  · rw [if_pos c2] at h
    obtain ⟨s, l, e⟩ := key _ (fun s => ⟨.multi, 0x23 :: s, [], []⟩) h
    exact ⟨s, by omega, by rw [c2, l]; rfl, e⟩
  rw [if_neg c2] at h
  by_cases c3 : x ≤ 0x6c
  · rw [if_pos c3] at h
    obtain ⟨s, l, e⟩ := key _ (fun s => ⟨.p2pkh, [], s, []⟩) h
    have := UInt8.le_iff_toNat_le.mp c3
    refine ⟨s, ?_, (u8_of x l).symm, e⟩
    rw [l]; exact this
  · rw [if_neg c3, if_pos trivial] at h
    cases h

theorem in_fwd (spare : Nat) (j : In) (hj : j.Ok) (r : Bytes) :
    ∃ i, decodeIn true spare (j.ser ++ r) = .ok (i, r) ∧ i.inType = kind j.script := by
  obtain ⟨h1, h2, h3⟩ := hj
  obtain ⟨u, hu, hk⟩ := unlock_fwd spare j.script (j.sequence ++ r) h2
  have e : j.ser ++ r = j.prev.take 32 ++ (j.prev.drop 32 ++ (UInt8.ofNat j.script.length :: (j.script ++ (j.sequence ++ r)))) := by
    unfold In.ser
    rw [← List.append_assoc (j.prev.take 32), List.take_append_drop]
    simp
  unfold decodeIn
  rw [e, takeN_append _ _ (by rw [List.length_take]; omega)]
  simp only [Res.bind_ok]
  rw [takeN_append _ _ (by rw [List.length_drop]; omega)]
  simp only [Res.bind_ok, take1]
  rw [hu]
  simp only [Res.bind_ok]
  rw [seq_iff.mpr ⟨rfl, h3⟩]
  exact ⟨_, rfl, hk⟩

theorem in_inv {spare : Nat} {b r : Bytes} {i : TxIn} (h : decodeIn true spare b = .ok (i, r)) :
    ∃ j : In, j.Ok ∧ b = j.ser ++ r ∧ i.inType = kind j.script := by
  have h0 := h
  unfold decodeIn at h
  obtain ⟨⟨x1, b1⟩, k1, h⟩ := Res.bind_eq_ok.mp h
  obtain ⟨⟨x2, b2⟩, k2, h⟩ := Res.bind_eq_ok.mp h
  obtain ⟨⟨x3, b3⟩, k3, h⟩ := Res.bind_eq_ok.mp h
  obtain ⟨⟨u, b4⟩, k4, h⟩ := Res.bind_eq_ok.mp h
  obtain ⟨⟨x5, b5⟩, k5, h⟩ := Res.bind_eq_ok.mp h
  simp only [Res.ok.injEq, Prod.mk.injEq] at h
  obtain ⟨hi, hr⟩ := h
  subst hr
  obtain ⟨e1, l1⟩ := takeN_inv k1
  obtain ⟨e2, l2⟩ := takeN_inv k2
  have e3 := take1_inv k3
  obtain ⟨s, l4, e4, e4'⟩ := unlock_inv k4
  obtain ⟨e5, l5⟩ := takeSequence_inv k5
  have hok : In.Ok ⟨x1 ++ x2, s, x5⟩ := ⟨by simp [l1, l2], l4, l5⟩
  have hb : b = In.ser ⟨x1 ++ x2, s, x5⟩ ++ b5 := by
    rw [e1, e2, e3, e4, e4', e5]; simp [In.ser]
  refine ⟨⟨x1 ++ x2, s, x5⟩, hok, hb, ?_⟩
  obtain ⟨i', f1, f2⟩ := in_fwd spare _ hok b5
  rw [← hb, h0] at f1
  cases f1
  exact f2

theorem ins_fwd (spare : Nat) : ∀ (js : List In), (∀ j ∈ js, j.Ok) → ∀ r, ∃ is, decodeIns true spare js.length ((js.map In.ser).flatten ++ r) = .ok (is, r) ∧
    is.map TxIn.inType = js.map (fun j => kind j.script)
  | [], _, r => ⟨[], rfl, rfl⟩
  | j :: js, h, r => by
    obtain ⟨i, h1, h2⟩ := in_fwd spare j (h j (by simp)) ((js.map In.ser).flatten ++ r)
    obtain ⟨is, h3, h4⟩ := ins_fwd spare js (fun k hk => h k (by simp [hk])) r
    refine ⟨i :: is, ?_, by simp [h2, h4]⟩
    rw [List.length_cons, decodeIns, List.map_cons, List.flatten_cons, List.append_assoc, h1]
    simp only [Res.bind_ok, h3]

theorem ins_inv {spare : Nat} : ∀ (n : Nat) {b r : Bytes} {is : List TxIn}, decodeIns true spare n b = .ok (is, r) →
    ∃ js : List In, js.length = n ∧ (∀ j ∈ js, j.Ok) ∧ b = (js.map In.ser).flatten ++ r ∧ is.map TxIn.inType = js.map (fun j => kind j.script)
  | 0, b, r, is, h => by
    simp only [decodeIns, Res.ok.injEq, Prod.mk.injEq] at h
    obtain ⟨rfl, rfl⟩ := h
    exact ⟨[], rfl, by simp, rfl, rfl⟩
  | n + 1, b, r, is, h => by
    unfold decodeIns at h
    obtain ⟨⟨i, b1⟩, k1, h⟩ := Res.bind_eq_ok.mp h
    obtain ⟨⟨js, b2⟩, k2, h⟩ := Res.bind_eq_ok.mp h
    simp only [Res.ok.injEq, Prod.mk.injEq] at h
    obtain ⟨rfl, rfl⟩ := h
    obtain ⟨j, a1, a2, a3⟩ := in_inv k1
    obtain ⟨ks, c1, c2, c3, c4⟩ := ins_inv n k2
    refine ⟨j :: ks, by simp [c1], ?_, by rw [a2, c3]; simp, by simp [a3, c4]⟩
    intro k hk
    rcases List.mem_cons.mp hk with rfl | hk
    · exact a1
    · exact c2 k hk

theorem outs_fwd : ∀ (os : List Out), (∀ o ∈ os, o.Ok) → ∀ r, ∃ l, decodeOuts os.length ((os.map Out.ser).flatten ++ r) = .ok (l, r)
  | [], _, r => ⟨[], rfl⟩
  | o :: os, h, r => by
    obtain ⟨h1, h2, h3⟩ := h o (by simp)
    obtain ⟨l, hl⟩ := outs_fwd os (fun k hk => h k (by simp [hk])) r
    have ht : (UInt8.ofNat o.script.length).toNat = o.script.length := by rw [UInt8.toNat_ofNat']; omega
    refine ⟨⟨o.amount, o.script⟩ :: l, ?_⟩
    rw [List.length_cons, decodeOuts, List.map_cons, List.flatten_cons, List.append_assoc]
    unfold decodeOut
    rw [show Out.ser o = o.amount ++ (UInt8.ofNat o.script.length :: o.script) from rfl, List.append_assoc, takeN_append _ _ h1]
    simp only [Res.bind_ok, List.cons_append, take1]
    rw [if_neg (by rw [← UInt8.toNat_inj, ht]; exact Nat.ne_of_gt h2), ht, takeN_append _ _ rfl]
    simp only [Res.bind_ok, hl]

theorem outs_inv {n : Nat} {b r : Bytes} {l : List TxOut} (h : decodeOuts n b = .ok (l, r)) :
    ∃ os : List Out, os.length = n ∧ (∀ o ∈ os, o.Ok) ∧ b = (os.map Out.ser).flatten ++ r := by
  obtain ⟨h1, h2, h3⟩ := decodeOuts_inv n h
  refine ⟨l.map (fun o => ⟨o.amount, o.lockScript⟩), by simp [h1], ?_, ?_⟩
  · intro o ho
    obtain ⟨x, hx, rfl⟩ := List.mem_map.mp ho
    obtain ⟨a, b, c⟩ := h2 x hx
    exact ⟨a, List.length_pos_of_ne_nil b, c⟩
  · rw [h3, List.map_map]; rfl

/-! The witnesses. -/

theorem copy_fwd {p rest : Bytes} (h : Pushes p rest) : ∀ (f : Nat) (acc r : Bytes), (p ++ rest).length ≤ f → (∀ x y r, rest = x :: y :: r → True) →
    copySigs f acc (p ++ (rest ++ r)) = .ok (acc ++ p, rest ++ r) := by
  induction h with
  | stop n x rest hx =>
    intro f acc r hf _
    cases f with
    | zero => simp at hf
    | succ f =>
      simp only [List.nil_append, List.cons_append, copySigs, List.append_nil]
      rw [if_pos hx]
  | push n body p rest hb hh hp ih =>
    intro f acc r hf _
    cases f with
    | zero => simp at hf
    | succ f =>
      simp only [List.cons_append, List.append_assoc]
      have hne : body ++ (p ++ (rest ++ r)) = (body ++ (p ++ rest)) ++ r := by simp
      obtain ⟨y, ys, hy⟩ : ∃ y ys, body ++ (p ++ rest) = y :: ys := by
        cases hq : body ++ (p ++ rest) with
        | nil => rw [hq] at hh; simp at hh
        | cons y ys => exact ⟨y, ys, rfl⟩
      have hy30 : y = 0x30 := by rw [hy] at hh; simpa using hh
      have hcons : body ++ (p ++ (rest ++ r)) = y :: (ys ++ r) := by rw [hne, hy]; rfl
      have hlen : (y :: (ys ++ r)).length ≥ n.toNat := by
        rw [← hcons, ← hb]; simp
      rw [hcons, copySigs]
      rw [if_neg (by simp [hy30]), if_neg (by omega), ← hcons]
      have t1 : (body ++ (p ++ (rest ++ r))).take n.toNat = body := by rw [← hb]; simp
      have t2 : (body ++ (p ++ (rest ++ r))).drop n.toNat = p ++ (rest ++ r) := by rw [← hb]; simp
      rw [t1, t2, ih f _ r (by simp at hf ⊢; omega) (by simp)]
      simp

theorem copy_inv : ∀ (f : Nat) {acc b acc' b' : Bytes}, copySigs f acc b = .ok (acc', b') →
    ∃ p n x t, acc' = acc ++ p ∧ b' = n :: x :: t ∧ b = p ++ b' ∧ Pushes p b' ∧ x ≠ 0x30
  | 0, acc, b, acc', b', h => by simp [copySigs] at h
  | f + 1, acc, b, acc', b', h => by
    unfold copySigs at h
    split at h
    · rename_i n x r
      by_cases c1 : x ≠ 0x30
      · rw [if_pos c1] at h
        cases h
        exact ⟨[], n, x, r, by simp, rfl, rfl, .stop n x r c1, c1⟩
      rw [if_neg c1] at h
      by_cases c2 : (x :: r).length < n.toNat
      · rw [if_pos c2] at h; cases h
      rw [if_neg c2] at h
      obtain ⟨p, n', x', t, e1, e2, e3, e4, e5⟩ := copy_inv f h
      refine ⟨n :: ((x :: r).take n.toNat ++ p), n', x', t, by rw [e1]; simp, e2, ?_, ?_, e5⟩
      · rw [List.cons_append, List.append_assoc, ← e3, List.take_append_drop]
      · refine .push n _ p b' (by rw [List.length_take]; omega) ?_ e4
        rw [← e3, List.take_append_drop]
        simpa using c1
    · cases h

/-- Behind the byte 0x30 test the remaining bytes do not matter. -/
theorem pushes_local {p n x : _} {t t' : Bytes} (h : Pushes p (n :: x :: t)) : Pushes p (n :: x :: t') := by
  generalize hb : n :: x :: t = b at h
  induction h with
  | stop n2 x2 r hx =>
    cases hb
    exact .stop _ _ _ hx
  | push n2 body p rest h1 h2 h3 ih =>
    subst hb
    refine .push n2 body p _ h1 ?_ (ih rfl)
    cases body with
    | cons y ys => simpa using h2
    | nil =>
      cases p with
      | cons y ys => simpa using h2
      | nil => simpa using h2

theorem multi_fwd {p redeem : Bytes} {n : UInt8} (h1 : redeem.length = n.toNat) (h2 : redeem.getLast? = some 0xae) (h3 : Pushes p (n :: redeem)) (r : Bytes) :
    decodeWitnessMulti (0x00 :: (p ++ n :: redeem) ++ r) = .ok (0x00 :: (p ++ n :: redeem), r) := by
  unfold decodeWitnessMulti
  simp only [List.cons_append, List.append_assoc, ne_eq, not_true_eq_false, if_false]
  have := copy_fwd h3 ((p ++ n :: (redeem ++ r)).length + 1) [0x00] r (by simp; omega) (by simp)
  simp only [List.cons_append] at this
  rw [this]
  simp only [List.nil_append]
  rw [if_neg (by rw [List.length_append]; omega)]
  have t1 : (redeem ++ r).take n.toNat = redeem := by rw [← h1]; simp
  have t2 : (redeem ++ r).drop n.toNat = r := by rw [← h1]; simp
  rw [t1, t2, if_neg (by rw [List.getLastD_eq_getLast?, h2]; simp)]
  simp

theorem multi_inv {b s r : Bytes} (h : decodeWitnessMulti b = .ok (s, r)) :
    ∃ p n redeem, redeem.length = (n : UInt8).toNat ∧ redeem.getLast? = some 0xae ∧ Pushes p (n :: redeem) ∧ b = 0x00 :: (p ++ n :: redeem) ++ r := by
  unfold decodeWitnessMulti at h
  split at h
  · cases h
  · rename_i z b
    by_cases c1 : z ≠ 0
    · rw [if_pos c1] at h; cases h
    rw [if_neg c1] at h
    simp only [not_not] at c1
    subst c1
    split at h
    · rename_i acc n b' hk
      obtain ⟨p, n', x, t, e1, e2, e3, e4, e5⟩ := copy_inv _ hk
      by_cases c2 : b'.length < n.toNat
      · rw [if_pos c2] at h; cases h
      rw [if_neg c2] at h
      by_cases c3 : (b'.take n.toNat).getLastD 0 ≠ 0xae
      · rw [if_pos c3] at h; cases h
      rw [if_neg c3] at h
      simp only [not_not] at c3
      cases h
      cases e2
      have hl : (List.take n.toNat (x :: t)).getLast? = some 0xae := by
        rw [List.getLastD_eq_getLast?] at c3
        cases hg : (List.take n.toNat (x :: t)).getLast? with
        | none => rw [hg] at c3; simp at c3
        | some y => rw [hg] at c3; simpa using c3
      refine ⟨p, n, (x :: t).take n.toNat, by rw [List.length_take]; omega, hl, ?_, ?_⟩
      · cases hn : n.toNat with
        | zero => rw [hn] at hl; simp at hl
        | succ m => rw [List.take_succ_cons]; exact pushes_local e4
      · rw [e3]
        simp only [List.cons_append, List.append_assoc, List.take_append_drop]
    · cases h
    · cases h
    · cases h

theorem copy_ne_panic : ∀ (f : Nat) (acc b : Bytes), copySigs f acc b ≠ .panic
  | 0, _, _ => by simp [copySigs]
  | f + 1, acc, b => by
    unfold copySigs
    split
    · split
      · simp
      · split
        · simp
        · exact copy_ne_panic f _ _
    · simp

theorem multi_panic (b : Bytes) : decodeWitnessMulti b = .panic ↔ b = [] := by
  constructor
  · intro h
    unfold decodeWitnessMulti at h
    split at h
    · rfl
    · split at h
      · cases h
      · split at h
        · split at h
          · cases h
          · split at h <;> cases h
        · cases h
        · cases h
        · rename_i hk
          exact absurd hk (copy_ne_panic _ _ _)
  · rintro rfl; rfl

theorem wit_fwd {s w : Bytes} (h : WitnessOf s w) (i : TxIn) (hi : i.inType = kind s) (r : Bytes) :
    ∃ i', decodeWitness true i (w ++ r) = .ok (i', r) := by
  cases h with
  | key n t h1 h2 =>
    have hk : i.inType = .bech32 ∨ i.inType = .p2wpkh := by
      rcases h1 with rfl | h1
      · exact Or.inl hi
      · refine Or.inr (hi.trans ?_)
        unfold kind
        rw [if_neg (by rintro rfl; simp at h1), if_pos h1]
    have ht := takeN_append (n :: t) r (n := n.toNat + 35) (by simp [h2])
    rw [List.cons_append] at ht
    unfold decodeWitness
    rcases hk with hk | hk <;> rw [hk] <;> simp only [List.cons_append, take1, Res.bind_ok, ne_eq, not_true_eq_false, if_false, ht] <;>
      exact ⟨_, rfl⟩
  | none h1 h2 h3 =>
    have hk : i.inType = .p2pkh := by rw [hi]; unfold kind; rw [if_neg h1, if_neg h2, if_neg h3]
    unfold decodeWitness
    rw [hk]
    exact ⟨_, rfl⟩
  | multi p n redeem h1 h2 h3 h4 =>
    have hk : i.inType = .multi := by
      rw [hi]; unfold kind; rw [if_neg (by rintro rfl; simp at h1), if_neg (by omega), if_pos h1]
    have hm := multi_fwd h2 h3 h4 r
    unfold decodeWitness
    rw [hk]
    simp only [List.cons_append, take1, Res.bind_ok, ne_eq, not_true_eq_false, if_false, Bool.not_true, Bool.false_eq_true] at hm ⊢
    rw [hm]
    exact ⟨_, rfl⟩

theorem wit_inv {s : Bytes} {i i' : TxIn} {b r : Bytes} (hi : i.inType = kind s) (h : decodeWitness true i b = .ok (i', r)) :
    ∃ w, WitnessOf s w ∧ b = w ++ r := by
  unfold decodeWitness at h
  obtain ⟨⟨c, b1⟩, k1, h⟩ := Res.bind_eq_ok.mp h
  have e1 := take1_inv k1
  rw [hi] at h
  have keyCase : ∀ g : Bytes → TxIn, (s = [] ∨ s.length = 23) → (if c ≠ 0x02 then Res.err
      else
        match b1 with
        | [] => .err
        | sigLen :: _ => do
          let (s, r) ← takeN (sigLen.toNat + 35) b1
          .ok (g s, r)) = .ok (i', r) → ∃ w, WitnessOf s w ∧ b = w ++ r := by
    intro g hs h
    by_cases c1 : c ≠ 0x02
    · rw [if_pos c1] at h; cases h
    rw [if_neg c1] at h
    simp only [not_not] at c1
    cases b1 with
    | nil => cases h
    | cons n rr =>
      dsimp only at h
      obtain ⟨⟨t, r2⟩, k2, h⟩ := Res.bind_eq_ok.mp h
      cases h
      obtain ⟨e2, l2⟩ := takeN_inv k2
      cases t with
      | nil => simp at l2
      | cons n2 t =>
        simp only [List.cons_append, List.cons.injEq] at e2
        obtain ⟨rfl, e2⟩ := e2
        refine ⟨_, .key n t hs (by simp at l2; omega), by rw [e1, c1, e2]; rfl⟩
  unfold kind at h
  by_cases g0 : s = []
  · rw [if_pos g0] at h
    exact keyCase (fun t => { i with inType := .bech32, scriptSig := t }) (Or.inl g0) h
  rw [if_neg g0] at h
  by_cases g1 : s.length = 23
  · rw [if_pos g1] at h
    exact keyCase (fun t => { i with inType := .p2wpkh, scriptSig := t }) (Or.inr g1) h
  rw [if_neg g1] at h
  by_cases g2 : s.length = 35
  · rw [if_pos g2] at h
    simp only [Bool.not_true, Bool.false_eq_true, if_false] at h
    by_cases c1 : c ≠ 0x04
    · rw [if_pos c1] at h; cases h
    rw [if_neg c1] at h
    simp only [not_not] at c1
    obtain ⟨⟨t, r2⟩, k2, h⟩ := Res.bind_eq_ok.mp h
    cases h
    obtain ⟨p, n, redeem, q1, q2, q3, q4⟩ := multi_inv k2
    exact ⟨_, .multi p n redeem g2 q1 q2 q3, by rw [e1, c1, q4]; simp⟩
  · rw [if_neg g2] at h
    dsimp only at h
    by_cases c1 : c ≠ 0x00
    · rw [if_pos c1] at h; cases h
    rw [if_neg c1] at h
    simp only [not_not] at c1
    cases h
    exact ⟨[0], .none g0 g1 g2, by rw [e1, c1]; rfl⟩

theorem wit_panic {s : Bytes} {i : TxIn} (hi : i.inType = kind s) (b : Bytes) :
    decodeWitness true i b = .panic ↔ s.length = 35 ∧ b = [0x04] := by
  by_cases g2 : s.length = 35
  · have hk : i.inType = .multi := by
      rw [hi]; unfold kind; rw [if_neg (by rintro rfl; simp at g2), if_neg (by omega), if_pos g2]
    constructor
    · intro h
      refine ⟨g2, ?_⟩
      unfold decodeWitness at h
      rcases Res.bind_eq_panic.mp h with h | ⟨⟨c, b1⟩, k1, h⟩
      · exact absurd h (take1_ne_panic _)
      have e1 := take1_inv k1
      rw [hk] at h
      simp only [Bool.not_true, Bool.false_eq_true, if_false] at h
      by_cases c1 : c ≠ 0x04
      · rw [if_pos c1] at h; cases h
      rw [if_neg c1] at h
      simp only [not_not] at c1
      rcases Res.bind_eq_panic.mp h with h | ⟨⟨t, r⟩, _, h⟩
      · rw [e1, c1, (multi_panic b1).mp h]
      · cases h
    · rintro ⟨_, rfl⟩
      unfold decodeWitness
      rw [hk]
      rfl
  · constructor
    · intro h
      refine absurd h (decodeWitness_ne_panic (Or.inr ?_) b)
      rw [hi]
      unfold kind
      split_ifs <;> decide
    · rintro ⟨h, _⟩
      exact absurd h g2

theorem wits_panic : ∀ (is : List TxIn) (ss : List Bytes), is.map TxIn.inType = ss.map kind → ∀ b,
    (decodeWitnesses true is b = .panic ↔ ∃ pre s post ws, ss = pre ++ s :: post ∧ s.length = 35 ∧ List.Forall₂ WitnessOf pre ws ∧ b = ws.flatten ++ [0x04])
  | [], ss, h, b => by
    have : ss = [] := by simpa using h.symm
    subst this
    simp [decodeWitnesses]
  | i :: is, [], h, b => by simp at h
  | i :: is, s :: ss, h, b => by
    simp only [List.map_cons, List.cons.injEq] at h
    obtain ⟨hi, his⟩ := h
    rw [decodeWitnesses, Res.bind_eq_panic]
    constructor
    · rintro (h | ⟨⟨i', r⟩, k1, h⟩)
      · obtain ⟨h1, h2⟩ := (wit_panic hi b).mp h
        exact ⟨[], s, ss, [], rfl, h1, .nil, by simp [h2]⟩
      · obtain ⟨w, hw, hb⟩ := wit_inv hi k1
        rcases Res.bind_eq_panic.mp h with h | ⟨⟨js, r2⟩, _, h⟩
        · obtain ⟨pre, s', post, ws, q1, q2, q3, q4⟩ := (wits_panic is ss his r).mp h
          exact ⟨s :: pre, s', post, w :: ws, by rw [q1]; rfl, q2, .cons hw q3, by rw [hb, q4]; simp⟩
        · cases h
    · rintro ⟨pre, s', post, ws, q1, q2, q3, q4⟩
      cases q3 with
      | nil =>
        simp only [List.nil_append, List.cons.injEq] at q1
        obtain ⟨rfl, rfl⟩ := q1
        exact Or.inl ((wit_panic hi b).mpr ⟨q2, by simpa using q4⟩)
      | cons hw q3 =>
        rename_i s2 w pre ws
        simp only [List.cons_append, List.cons.injEq] at q1
        obtain ⟨rfl, rfl⟩ := q1
        obtain ⟨i', hi'⟩ := wit_fwd hw i hi (ws.flatten ++ [0x04])
        refine Or.inr ⟨(i', ws.flatten ++ [0x04]), by rw [q4, ← hi']; simp, ?_⟩
        dsimp only
        rw [(wits_panic is _ his _).mpr ⟨pre, s', post, ws, rfl, q2, q3, rfl⟩]
        rfl

theorem body_panic {spare : Nat} (hs : 6 ≤ spare) (v b : Bytes) : decodeBody spare true true v b = .panic ↔
    ∃ (before : List In) (i : In) (after : List In) (outs : List Out) (ws : List Bytes),
    (∀ j ∈ before ++ i :: after, j.Ok) ∧ (before ++ i :: after).length < 256 ∧ (∀ o ∈ outs, o.Ok) ∧ outs ≠ [] ∧ outs.length < 256 ∧
    i.script.length = 35 ∧ List.Forall₂ (fun j w => WitnessOf j.script w) before ws ∧
    b = UInt8.ofNat (before ++ i :: after).length :: (((before ++ i :: after).map In.ser).flatten ++
      (UInt8.ofNat outs.length :: ((outs.map Out.ser).flatten ++ (ws.flatten ++ [0x04])))) := by
  constructor
  · intro h
    unfold decodeBody at h
    rcases Res.bind_eq_panic.mp h with h | ⟨⟨n, b1⟩, k1, h⟩
    · exact absurd h (take1_ne_panic _)
    have e1 := take1_inv k1
    simp only at h
    by_cases hn : n = 0
    · rw [if_pos hn] at h; cases h
    rw [if_neg hn] at h
    rcases Res.bind_eq_panic.mp h with h | ⟨⟨is, b2⟩, k2, h⟩
    · exact absurd h (decodeIns_ne_panic hs _ _)
    obtain ⟨js, i1, i2, i3, i4⟩ := ins_inv _ k2
    rcases Res.bind_eq_panic.mp h with h | ⟨⟨m, b3⟩, k3, h⟩
    · exact absurd h (take1_ne_panic _)
    have e3 := take1_inv k3
    simp only at h
    by_cases hm : m = 0
    · rw [if_pos hm] at h; cases h
    rw [if_neg hm] at h
    rcases Res.bind_eq_panic.mp h with h | ⟨⟨ol, b4⟩, k4, h⟩
    · exact absurd h (decodeOuts_ne_panic _ _)
    obtain ⟨os, o1, o2, o3⟩ := outs_inv k4
    dsimp only at h
    rw [if_pos trivial] at h
    rcases Res.bind_eq_panic.mp h with h | ⟨⟨is', b5⟩, k5, h⟩
    · have hk : is.map TxIn.inType = (js.map In.script).map kind := by rw [i4, List.map_map]; rfl
      obtain ⟨pre, s, post, ws, q1, q2, q3, q4⟩ := (wits_panic is _ hk b4).mp h
      obtain ⟨before, tl, rfl, p2, p3⟩ := List.map_eq_append_iff.mp q1
      obtain ⟨i, after, rfl, p5, p6⟩ := List.map_eq_cons_iff.mp p3
      have nlt := n.toNat_lt
      have mlt := m.toNat_lt
      refine ⟨before, i, after, os, ws, i2, by omega, o2, ?_, by omega, by rw [p5]; exact q2, ?_, ?_⟩
      · rintro rfl
        exact hm (UInt8.toNat_inj.mp o1.symm)
      · rw [← p2, List.forall₂_map_left_iff] at q3
        exact q3
      · dsimp only at e3 o3
        rw [e1, i3, e3, o3, q4, u8_of n i1, u8_of m o1]
    · rcases Res.bind_eq_panic.mp h with h | ⟨⟨lt, b6⟩, _, h⟩
      · exact absurd h (takeN_ne_panic _ _)
      · dsimp only at h
        split_ifs at h
  · rintro ⟨before, i, after, outs, ws, h1, h2, h3, h4, h5, h6, h7, rfl⟩
    generalize hjs : before ++ i :: after = js at h1 h2
    have ht : (UInt8.ofNat js.length).toNat = js.length := by rw [UInt8.toNat_ofNat']; omega
    have hto : (UInt8.ofNat outs.length).toNat = outs.length := by rw [UInt8.toNat_ofNat']; omega
    have hjne : js.length ≠ 0 := by rw [← hjs]; simp
    have hone : outs.length ≠ 0 := fun e => h4 (List.length_eq_zero_iff.mp e)
    obtain ⟨is, a1, a2⟩ := ins_fwd spare js h1 (UInt8.ofNat outs.length :: ((outs.map Out.ser).flatten ++ (ws.flatten ++ [0x04])))
    obtain ⟨l, c1⟩ := outs_fwd outs h3 (ws.flatten ++ [0x04])
    unfold decodeBody
    simp only [take1, Res.bind_ok]
    rw [if_neg (by rw [← UInt8.toNat_inj, ht]; exact hjne), ht, a1]
    simp only [Res.bind_ok]
    rw [if_neg (by rw [← UInt8.toNat_inj, hto]; exact hone), hto, c1]
    simp only [Res.bind_ok, if_true]
    have hk : is.map TxIn.inType = (js.map In.script).map kind := by rw [a2, List.map_map]; rfl
    rw [(wits_panic is _ hk _).mpr ⟨before.map In.script, i.script, after.map In.script, ws, by rw [← hjs]; simp, h6, ?_, rfl⟩]
    · rfl
    · rw [List.forall₂_map_left_iff]; exact h7

end DecodeCut

open DecodeCut

/-- C23, exactly (`v` is the transaction version of the package): with six bytes of spare capacity behind the slice, `DecodeRawTransaction` panics if and only if
segwit is on and the bytes are the beginning of a transaction with witness data that ends right behind the number of witness items of a multisig input. -/
theorem C23_panic_exact (v spare : Nat) (hs : 6 ≤ spare) (segwitOn : Bool) (b : Bytes) :
    decodeTxV v spare segwitOn b = .panic ↔ segwitOn = true ∧ CutWitness v b := by
  have step : ∀ w : UInt8, ∀ x r : Bytes, x.length = 4 → leNat x = v →
      decodeTxV v spare segwitOn (x ++ (0x00 :: w :: r)) = if w ≠ 0x01 then .err else decodeBody spare segwitOn true x r := by
    intro w x r h1 h2
    unfold decodeTxV
    rw [takeN_append _ _ h1]
    simp only [Res.bind_ok]
    rw [if_neg (by simp [h2]), if_neg (by simp)]
  constructor
  · intro h
    have h0 := h
    unfold decodeTxV at h
    rcases Res.bind_eq_panic.mp h with h | ⟨⟨x, b1⟩, k1, h⟩
    · exact absurd h (takeN_ne_panic _ _)
    obtain ⟨e1, l1⟩ := BtcParse.takeN_inv k1
    simp only at h
    by_cases hv : leNat x ≠ v
    · rw [if_pos hv] at h; cases h
    rw [if_neg hv] at h
    simp only [not_not] at hv
    by_cases hl : b1.length < 2
    · rw [if_pos hl] at h; cases h
    rw [if_neg hl] at h
    split at h
    · rename_i w r
      by_cases hw : w ≠ 0x01
      · rw [if_pos hw] at h; cases h
      rw [if_neg hw] at h
      simp only [not_not] at hw
      cases segwitOn with
      | false => exact absurd h (decodeBody_ne_panic hs (Or.inl rfl) _ _)
      | true =>
        obtain ⟨before, i, after, outs, ws, h1, h2, h3, h4, h5, h6, h7, h8⟩ := (body_panic hs _ _).mp h
        exact ⟨rfl, x, before, i, after, outs, ws, l1, hv, h1, h2, h3, h4, h5, h6, h7, by rw [e1, h8, hw]; rfl⟩
    · exact absurd h (decodeBody_ne_panic hs (Or.inr rfl) _ _)
  · rintro ⟨rfl, x, before, i, after, outs, ws, l1, hv, h1, h2, h3, h4, h5, h6, h7, rfl⟩
    have := step 0x01 x (UInt8.ofNat (before ++ i :: after).length :: (((before ++ i :: after).map In.ser).flatten ++
      (UInt8.ofNat outs.length :: ((outs.map Out.ser).flatten ++ (ws.flatten ++ [0x04]))))) l1 hv
    simp only [List.cons_append, List.nil_append] at this ⊢
    rw [this, if_neg (by simp)]
    exact (body_panic hs _ _).mpr ⟨before, i, after, outs, ws, h1, h2, h3, h4, h5, h6, h7, rfl⟩

/-- The same for every text given to the functions that take hexadecimal text: the slice they decode has spare capacity. -/
theorem C23_panic_hex_exact (v : Nat) (segwitOn : Bool) (b : Bytes) :
    decodeTxV v (hexSpare b) segwitOn b = .panic ↔ segwitOn = true ∧ CutWitness v b := by
  by_cases h : 6 ≤ b.length
  · exact C23_panic_exact v _ h segwitOn b
  constructor
  · intro hp
    exfalso
    unfold decodeTxV at hp
    rcases Res.bind_eq_panic.mp hp with hp | ⟨⟨x, b1⟩, k1, hp⟩
    · exact takeN_ne_panic _ _ hp
    obtain ⟨e1, l1⟩ := BtcParse.takeN_inv k1
    have : b1.length < 2 := by
      have := congrArg List.length e1
      rw [List.length_append] at this
      omega
    simp only at hp
    split_ifs at hp
  · rintro ⟨_, x, before, i, after, outs, ws, l1, _, _, _, _, _, _, _, _, hb⟩
    exfalso
    apply h
    rw [hb]
    simp only [List.length_append, List.length_cons]
    omega

/-- The bytes on which it panics: one multisig input, one output. -/
example : CutWitness 2 (leBytes 4 2 ++ ([0x00, 0x01] ++ (1 :: ((List.replicate 36 7 ++ (35 :: (List.replicate 35 9 ++ [0xff, 0xff, 0xff, 0xff]))) ++
    (1 :: ((List.replicate 8 0 ++ [1, 0x51]) ++ [0x04])))))) :=
  ⟨leBytes 4 2, [], ⟨List.replicate 36 7, List.replicate 35 9, [0xff, 0xff, 0xff, 0xff]⟩, [], [⟨List.replicate 8 0, [0x51]⟩], [], rfl, by decide,
    by simp [In.Ok], by simp, by simp [Out.Ok], by simp, by simp, rfl, .nil, rfl⟩

/-- A second one: the witness of a P2WPKH input comes first. -/
example : ∃ b, CutWitness 1 b ∧ decodeTxV 1 (hexSpare b) true b = .panic := by
  have h : CutWitness 1 _ := ⟨leBytes 4 1, [⟨List.replicate 36 1, [], List.replicate 4 0⟩], ⟨List.replicate 36 7, List.replicate 35 9, List.replicate 4 0⟩, [],
    [⟨List.replicate 8 0, [0x51]⟩], [0x02 :: 71 :: List.replicate 105 5], rfl, by decide, by simp [In.Ok], by simp, by simp [Out.Ok], by simp, by simp, rfl,
    .cons (.key 71 _ (Or.inl rfl) (by simp)) .nil, rfl⟩
  exact ⟨_, h, (C23_panic_hex_exact 1 true _).mpr ⟨rfl, h⟩⟩

/-- The witness of a multisig input with one signature. -/
example : WitnessOf (List.replicate 35 1) (0x04 :: 0x00 :: ((2 :: [0x30, 7]) ++ 3 :: [0x51, 0x51, 0xae])) :=
  .multi (2 :: ([0x30, 7] ++ [])) 3 [0x51, 0x51, 0xae] rfl rfl rfl (.push 2 [0x30, 7] [] _ rfl rfl (.stop _ _ _ (by decide)))

end Verif
