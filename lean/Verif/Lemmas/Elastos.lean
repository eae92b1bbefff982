import Verif.Model.Elastos
import Verif.Spec.Elastos
import Verif.Lemmas.Filenet
import Verif.Lemmas.BigBang

/-! Lemmas about `elastosTransaction`. -/

namespace Verif.Elastos
open Verif Verif.Spec.Elastos

/-! ### Counts -/

theorem putUvarint_eq : ∀ (room n : Nat), n < 128 ^ room → putUvarint room n = if room = 0 then .panic else .ok (uvarint n)
  | 0, _, _ => rfl
  | room + 1, n, h => by
    rw [if_neg (by omega)]
    unfold putUvarint
    rw [uvarint]
    by_cases h128 : n < 128
    · rw [if_neg (by omega), if_pos h128]
    · rw [if_pos (by omega), if_neg h128]
      have hn : n / 128 < 128 ^ room := by
        rw [Nat.pow_succ] at h
        exact Nat.div_lt_of_lt_mul (by rw [Nat.mul_comm]; exact h)
      have hr : room ≠ 0 := by
        rintro rfl
        simp at h
        omega
      rw [putUvarint_eq room _ hn, if_neg hr, Res.bind_ok]
      have : UInt8.ofNat n ||| 0x80 = UInt8.ofNat (n % 128 + 128) := by
        have hall : ∀ x : UInt8, x ||| 0x80 = UInt8.ofNat (x.toNat % 128 + 128) := by
          intro x; revert x; apply Hex.u8_forall; decide +kernel
        rw [hall, UInt8.toNat_ofNat']
        refine congrArg (fun k => UInt8.ofNat (k + 128)) ?_
        show n % 256 % 128 = n % 128
        omega
      rw [this]

theorem uint64ToUvarint_eq {n : Nat} (h : n < 2 ^ 56) : uint64ToUvarint n = .ok (uvarint n) := by
  unfold uint64ToUvarint
  rw [putUvarint_eq 8 n (by exact_mod_cast h), if_neg (by omega)]

theorem uint64ToUvarint_panic : ∀ (room n : Nat), 128 ^ room ≤ n → putUvarint room n = .panic
  | 0, _, _ => rfl
  | room + 1, n, h => by
    have hp : 0 < 128 ^ room := Nat.pow_pos (by decide)
    rw [Nat.pow_succ] at h
    unfold putUvarint
    rw [if_pos (by omega), uint64ToUvarint_panic room (n / 128) ((Nat.le_div_iff_mul_le (by decide)).mpr h)]
    rfl

theorem uvarint_def (n : Nat) : uvarint n = if n < 128 then [UInt8.ofNat n] else UInt8.ofNat (n % 128 + 128) :: uvarint (n / 128) := by
  rw [uvarint]

theorem uvarint_prefix : ∀ (m n : Nat) {r s : Bytes}, uvarint m ++ r = uvarint n ++ s → m = n ∧ r = s := by
  intro m
  induction m using Nat.strong_induction_on with
  | _ m ih =>
    intro n r s h
    rw [uvarint_def m, uvarint_def n] at h
    by_cases hm : m < 128
    · by_cases hn : n < 128
      · rw [if_pos hm, if_pos hn] at h
        simp only [List.cons_append, List.nil_append, List.cons.injEq] at h
        have := congrArg UInt8.toNat h.1
        rw [UInt8.toNat_ofNat_of_lt' (by show m < 256; omega), UInt8.toNat_ofNat_of_lt' (by show n < 256; omega)] at this
        exact ⟨this, h.2⟩
      · rw [if_pos hm, if_neg hn] at h
        simp only [List.cons_append, List.nil_append, List.cons.injEq] at h
        have := congrArg UInt8.toNat h.1
        rw [UInt8.toNat_ofNat_of_lt' (by show m < 256; omega), UInt8.toNat_ofNat_of_lt' (by show n % 128 + 128 < 256; omega)] at this
        omega
    · by_cases hn : n < 128
      · rw [if_neg hm, if_pos hn] at h
        simp only [List.cons_append, List.nil_append, List.cons.injEq] at h
        have := congrArg UInt8.toNat h.1
        rw [UInt8.toNat_ofNat_of_lt' (by show m % 128 + 128 < 256; omega), UInt8.toNat_ofNat_of_lt' (by show n < 256; omega)] at this
        omega
      · rw [if_neg hm, if_neg hn] at h
        simp only [List.cons_append, List.cons.injEq] at h
        have := congrArg UInt8.toNat h.1
        rw [UInt8.toNat_ofNat_of_lt' (by show m % 128 + 128 < 256; omega), UInt8.toNat_ofNat_of_lt' (by show n % 128 + 128 < 256; omega)] at this
        obtain ⟨h1, h2⟩ := ih (m / 128) (by omega) (n / 128) h.2
        exact ⟨by omega, h2⟩

/-! ### Addresses -/

/-- Accepted addresses are exactly the Base58Check texts of the prefix 0x21 and 20 bytes. -/
theorem programHash_iff (H : Hashes) (address b : Bytes) : programHash H address = .ok b ↔
    ∃ h, h.length = 20 ∧ b = 0x21 :: h ∧ Spec.IsBase58Check H Btc.alphabet [0x21] h address := by
  unfold programHash Spec.IsBase58Check
  constructor
  · intro e
    obtain ⟨ret, hr, e⟩ := Res.bind_eq_ok.mp e
    split at e
    · cases e
    rename_i hl
    split at e
    · cases e
    rename_i hc
    split at e
    · cases e
    rename_i hh
    cases e
    have hl : ret.length = 25 := by simpa using hl
    have hc : (H.hash .doubleSha256 (ret.take (ret.length - 4))).take 4 = ret.drop (ret.length - 4) := by simpa using hc
    have hh : ret.head? = some 0x21 := by simpa using hh
    match ret, hh with
    | x :: t, hh =>
      simp only [List.head?_cons, Option.some.injEq] at hh
      subst hh
      simp only [List.length_cons, Nat.reduceEqDiff] at hl
      have e1 : (0x21 :: t : Bytes).take ((0x21 :: t : Bytes).length - 4) = 0x21 :: t.take 20 := by
        simp only [List.length_cons, hl]; rfl
      refine ⟨t.take 20, by simp [hl], e1, ?_⟩
      have e2 : ([0x21] : Bytes) ++ t.take 20 = 0x21 :: t.take 20 := rfl
      rw [e2, ← e1, hc, List.take_append_drop]
      exact (Filenet.decode58_iff _ _).mp hr
  · rintro ⟨h, hl, rfl, ha⟩
    have hs : ((H.hash .doubleSha256 ([0x21] ++ h)).take 4).length = 4 := by rw [List.length_take, H.size]; rfl
    rw [(Filenet.decode58_iff _ _).mpr ha, Res.bind_ok]
    generalize hc : (H.hash .doubleSha256 ([0x21] ++ h)).take 4 = c at hs
    have hlen : ([0x21] ++ h ++ c).length = 25 := by simp [hl, hs]
    have ht : ([0x21] ++ h ++ c).take (([0x21] ++ h ++ c).length - 4) = [0x21] ++ h := by
      rw [hlen]
      exact List.take_left' (by simp [hl])
    have hd : ([0x21] ++ h ++ c).drop (([0x21] ++ h ++ c).length - 4) = c := by
      rw [hlen]
      exact List.drop_left' (by simp [hl])
    rw [if_neg (by simpa using hlen), ht, hd, hc, if_neg (by simp), if_neg (by simp)]
    rfl

/-! ### The transaction -/

theorem mapAll_iff {α : Type} (f : α → Res Bytes) : ∀ (l : List α) (bs : List Bytes), mapAll f l = .ok bs ↔
    List.Forall₂ (fun x b => f x = .ok b) l bs
  | [], bs => by
    unfold mapAll
    constructor
    · intro h; cases h; exact .nil
    · intro h; cases h; rfl
  | x :: xs, bs => by
    unfold mapAll
    constructor
    · intro h
      obtain ⟨b, hb, h⟩ := Res.bind_eq_ok.mp h
      obtain ⟨r, hr, h⟩ := Res.bind_eq_ok.mp h
      cases h
      exact .cons hb ((mapAll_iff f xs r).mp hr)
    · intro h
      cases h with
      | cons h1 h2 => rw [h1, Res.bind_ok, (mapAll_iff f xs _).mpr h2, Res.bind_ok]

/-- An input of the request and of the transfer. -/
def InOf (v : Vin) (i : Bytes × Nat) : Prop := Hex.decode v.txid = .ok i.1 ∧ i.2 = v.vout.toNat

/-- An output of the request and of the transfer. -/
def OutOf (H : Hashes) (v : Vout) (o : Out) : Prop :=
  Hex.decode v.asset = .ok o.asset ∧ o.amount = v.amount.toNat ∧ o.hash.length = 20 ∧
    Spec.IsBase58Check H Btc.alphabet [0x21] o.hash v.address

theorem newInput_iff (v : Vin) (b : Bytes) : newInput v = .ok b ↔ ∃ i, InOf v i ∧ b = inWire i := by
  unfold newInput InOf inWire
  constructor
  · intro h
    obtain ⟨t, ht, h⟩ := Res.bind_eq_ok.mp h
    cases h
    exact ⟨(t.reverse, v.vout.toNat), ⟨(BigBang.reverseHex_ok_iff _ _).mp ht, rfl⟩, by rw [List.reverse_reverse]⟩
  · rintro ⟨i, ⟨h1, h2⟩, rfl⟩
    rw [(BigBang.reverseHex_ok_iff v.txid i.1.reverse).mpr (by rw [List.reverse_reverse]; exact h1), Res.bind_ok, h2]

theorem newOutput_iff (H : Hashes) (v : Vout) (b : Bytes) : newOutput H v = .ok b ↔ ∃ o, OutOf H v o ∧ b = outWire o := by
  unfold newOutput OutOf outWire
  constructor
  · intro h
    obtain ⟨t, ht, h⟩ := Res.bind_eq_ok.mp h
    obtain ⟨p, hp, h⟩ := Res.bind_eq_ok.mp h
    cases h
    obtain ⟨x, hl, rfl, hx⟩ := (programHash_iff _ _ _).mp hp
    exact ⟨⟨t.reverse, v.amount.toNat, x⟩, ⟨(BigBang.reverseHex_ok_iff _ _).mp ht, rfl, hl, hx⟩, by simp⟩
  · rintro ⟨o, ⟨h1, h2, h3, h4⟩, rfl⟩
    rw [(BigBang.reverseHex_ok_iff v.asset o.asset.reverse).mpr (by rw [List.reverse_reverse]; exact h1), Res.bind_ok,
      (programHash_iff H v.address (0x21 :: o.hash)).mpr ⟨o.hash, h3, rfl, h4⟩, Res.bind_ok, h2]

theorem forall₂_exists {α β γ : Type} {P : α → β → Prop} {w : β → γ} : ∀ {l : List α} {m : List γ},
    List.Forall₂ (fun x c => ∃ b, P x b ∧ c = w b) l m ↔ ∃ bs, List.Forall₂ P l bs ∧ m = bs.map w := by
  intro l
  induction l with
  | nil =>
    intro m
    constructor
    · intro h; cases h; exact ⟨[], .nil, rfl⟩
    · rintro ⟨bs, h, rfl⟩; cases h; exact .nil
  | cons x xs ih =>
    intro m
    constructor
    · intro h
      cases h with
      | cons h1 h2 =>
        obtain ⟨b, hb, rfl⟩ := h1
        obtain ⟨bs, hbs, rfl⟩ := ih.mp h2
        exact ⟨b :: bs, .cons hb hbs, rfl⟩
    · rintro ⟨bs, h, rfl⟩
      cases h with
      | cons h1 h2 => exact .cons ⟨_, h1, rfl⟩ (ih.mpr ⟨_, h2, rfl⟩)

theorem newTx_iff (H : Hashes) (vins : List Vin) (vouts : List Vout) (raw : Bytes) (h1 : vins.length < 2 ^ 56) (h2 : vouts.length < 2 ^ 56) :
    newTx H vins vouts = .ok raw ↔ ∃ t : Tx, List.Forall₂ InOf vins t.inputs ∧ List.Forall₂ (OutOf H) vouts t.outputs ∧ raw = t.wire := by
  unfold newTx
  constructor
  · intro h
    obtain ⟨ins, hi, h⟩ := Res.bind_eq_ok.mp h
    obtain ⟨outs, ho, h⟩ := Res.bind_eq_ok.mp h
    rw [mapAll_iff] at hi ho
    rw [uint64ToUvarint_eq (by rw [← hi.length_eq]; exact h1), Res.bind_ok, uint64ToUvarint_eq (by rw [← ho.length_eq]; exact h2), Res.bind_ok] at h
    cases h
    obtain ⟨is, his, rfl⟩ := forall₂_exists.mp (hi.imp fun _ _ e => (newInput_iff _ _).mp e)
    obtain ⟨os, hos, rfl⟩ := forall₂_exists.mp (ho.imp fun _ _ e => (newOutput_iff _ _ _).mp e)
    refine ⟨⟨is, os⟩, his, hos, ?_⟩
    unfold Tx.wire
    simp only [List.length_map, List.flatMap]
  · rintro ⟨t, hi, ho, rfl⟩
    have hi' := (mapAll_iff newInput vins (t.inputs.map inWire)).mpr
      ((forall₂_exists.mpr ⟨t.inputs, hi, rfl⟩).imp fun _ _ e => (newInput_iff _ _).mpr e)
    have ho' := (mapAll_iff (newOutput H) vouts (t.outputs.map outWire)).mpr
      ((forall₂_exists.mpr ⟨t.outputs, ho, rfl⟩).imp fun _ _ e => (newOutput_iff _ _ _).mpr e)
    rw [hi', Res.bind_ok, ho', Res.bind_ok, List.length_map, List.length_map, uint64ToUvarint_eq (by rw [← hi.length_eq]; exact h1), Res.bind_ok,
      uint64ToUvarint_eq (by rw [← ho.length_eq]; exact h2), Res.bind_ok]
    unfold Tx.wire
    simp only [List.flatMap]

/-! ### Hashes to sign -/

theorem firstUse_filter {α : Type} [DecidableEq α] (p : α → Bool) : ∀ l : List α, firstUse (l.filter p) = (firstUse l).filter p
  | [] => rfl
  | a :: l => by
    by_cases h : p a
    · rw [List.filter_cons_of_pos h]
      unfold firstUse
      rw [List.filter_cons_of_pos h, firstUse_filter p l, List.filter_filter, List.filter_filter]
      refine congrArg _ (List.filter_congr ?_)
      intro x _
      exact Bool.and_comm _ _
    · rw [List.filter_cons_of_neg h, firstUse_filter p l]
      rw [show firstUse (a :: l) = a :: (firstUse l).filter (· ≠ a) from rfl, List.filter_cons_of_neg h, List.filter_filter]
      refine List.filter_congr ?_
      intro x _
      by_cases hx : x = a
      · subst hx; simp [h]
      · simp [hx]

theorem txHashes_eq (hash : Bytes) : ∀ (vs : List Vin) (acc : List (Bytes × Bytes)),
    txHashes hash vs acc = acc ++ ((firstUse (vs.map (·.address))).filter fun a => !acc.any (fun t => t.1 = a)).map fun a => (a, hash)
  | [], acc => by simp [txHashes, firstUse]
  | v :: vs, acc => by
    unfold txHashes
    have hf : firstUse ((v :: vs).map (·.address)) = v.address :: (firstUse (vs.map (·.address))).filter (· ≠ v.address) := rfl
    rw [hf]
    by_cases h : acc.any (fun t => t.1 = v.address) = true
    · rw [if_pos h, txHashes_eq hash vs acc, List.filter_cons_of_neg (by simp [h]), List.filter_filter]
      refine congrArg (fun l => acc ++ List.map _ l) (List.filter_congr ?_)
      intro x _
      by_cases hx : x = v.address
      · subst hx; rw [h]; rfl
      · simp [hx]
    · rw [if_neg h, txHashes_eq hash vs, List.filter_cons_of_pos (by rw [Bool.not_eq_true] at h; rw [h]; rfl), List.filter_filter]
      simp only [List.map_cons, List.append_assoc, List.cons_append, List.nil_append]
      refine congrArg (fun l => acc ++ (v.address, hash) :: List.map _ l) (List.filter_congr ?_)
      intro x _
      simp only [List.any_append, List.any_cons, List.any_nil, Bool.or_false, Bool.not_or]
      refine congrArg _ ?_
      by_cases hx : x = v.address
      · subst hx; simp
      · have hx' : v.address ≠ x := fun e => hx e.symm
        simp [hx, hx']

theorem firstUse_nodup {α : Type} [DecidableEq α] : ∀ l : List α, (firstUse l).Nodup
  | [] => List.nodup_nil
  | a :: l => by
    unfold firstUse
    refine List.nodup_cons.mpr ⟨by simp, (firstUse_nodup l).filter _⟩

theorem mem_firstUse {α : Type} [DecidableEq α] (x : α) : ∀ l : List α, x ∈ firstUse l ↔ x ∈ l
  | [] => Iff.rfl
  | a :: l => by
    unfold firstUse
    rw [List.mem_cons, List.mem_filter, mem_firstUse x l, List.mem_cons]
    by_cases h : x = a <;> simp [h]

theorem firstUse_order {α : Type} [DecidableEq α] : ∀ l : List α, (firstUse l).Pairwise fun a b => l.idxOf a < l.idxOf b
  | [] => List.Pairwise.nil
  | a :: l => by
    unfold firstUse
    refine List.pairwise_cons.mpr ⟨?_, ?_⟩
    · intro b hb
      have hne : b ≠ a := by simpa using (List.mem_filter.mp hb).2
      rw [List.idxOf_cons_self, List.idxOf_cons_ne _ hne.symm]
      omega
    · refine ((firstUse_order l).filter _).imp_of_mem ?_
      intro x y hx hy h
      have hx : x ≠ a := by simpa using (List.mem_filter.mp hx).2
      have hy : y ≠ a := by simpa using (List.mem_filter.mp hy).2
      rw [List.idxOf_cons_ne _ hx.symm, List.idxOf_cons_ne _ hy.symm]
      omega

/-! ### Reading back -/

/-- Concatenations of equally many blocks of one size. -/
theorem blocks_inj {α : Type} {P : α → Prop} (w : α → Bytes) (k : Nat) (inj : ∀ a b, P a → P b → w a = w b → a = b)
    (size : ∀ a, P a → (w a).length = k) : ∀ {l m : List α} {r s : Bytes}, l.length = m.length → (∀ a ∈ l, P a) → (∀ a ∈ m, P a) →
      l.flatMap w ++ r = m.flatMap w ++ s → l = m ∧ r = s
  | [], [], _, _, _, _, _, h => ⟨rfl, h⟩
  | a :: l, b :: m, r, s, hl, h1, h2, h => by
    rw [List.flatMap_cons, List.flatMap_cons, List.append_assoc, List.append_assoc] at h
    obtain ⟨ha, h1⟩ := List.forall_mem_cons.mp h1
    obtain ⟨hb, h2⟩ := List.forall_mem_cons.mp h2
    obtain ⟨e1, h⟩ := List.append_inj h (by rw [size a ha, size b hb])
    obtain ⟨e2, h⟩ := blocks_inj w k inj size (by simpa using hl) h1 h2 h
    exact ⟨by rw [inj a b ha hb e1, e2], h⟩
  | [], _ :: _, _, _, hl, _, _, _ => by simp at hl
  | _ :: _, [], _, _, hl, _, _, _ => by simp at hl

theorem forall₂_mem {α β : Type} {P : α → β → Prop} {l : List α} {m : List β} (h : List.Forall₂ P l m) : ∀ b ∈ m, ∃ a ∈ l, P a b := by
  induction h with
  | nil => simp
  | cons h _ ih =>
    refine List.forall_mem_cons.mpr ⟨⟨_, List.mem_cons_self, h⟩, fun b hb => ?_⟩
    obtain ⟨a, ha, hp⟩ := ih b hb
    exact ⟨a, List.mem_cons_of_mem _ ha, hp⟩

theorem forall₂_map_eq {α β γ : Type} {P : α → β → Prop} {f : α → γ} {l l' : List α} {m : List β} (h : List.Forall₂ P l m)
    (h' : List.Forall₂ P l' m) (e : ∀ a a' b, P a b → P a' b → f a = f a') : l.map f = l'.map f := by
  induction h generalizing l' with
  | nil => cases h'; rfl
  | cons h _ ih =>
    cases h' with
    | cons h2 h3 => rw [List.map_cons, List.map_cons, e _ _ _ h h2, ih h3]

/-! ### Combining -/

theorem verifyAll_iff (E : Btc.Curve) (hash : Bytes) : ∀ l : List SigPub, verifyAll E hash l = .ok true ↔
    ∀ s ∈ l, ∃ p0 p, E.decompress s.pub = p0 :: p ∧ E.verify p hash s.sig = true
  | [] => by simp [verifyAll]
  | s :: l => by
    unfold verifyAll
    rw [List.forall_mem_cons, ← verifyAll_iff E hash l]
    constructor
    · intro h
      obtain ⟨p, hp, h⟩ := Res.bind_eq_ok.mp h
      split at h
      · rename_i hv
        refine ⟨?_, h⟩
        match hd : E.decompress s.pub with
        | [] => rw [hd] at hp; cases hp
        | p0 :: r =>
          rw [hd, slice_ok (by simp) (le_refl _)] at hp
          simp only [List.take_length, List.drop_succ_cons, List.drop_zero] at hp
          cases hp
          exact ⟨p0, _, rfl, hv⟩
      · cases h
    · rintro ⟨⟨p0, p, hd, hv⟩, h⟩
      rw [hd, slice_ok (by simp) (le_refl _)]
      simp only [List.take_length, List.drop_succ_cons, List.drop_zero, Res.bind_ok, hv, if_true, h]

theorem sigpubs_iff (l : List SigPub) (b : Bytes) (hl : l.length < 2 ^ 56) : sigpubsBytes l = .ok b ↔
    (∀ s ∈ l, s.pub.length = 33 ∧ s.sig.length = 64) ∧ b = uvarint l.length ++ l.flatMap fun s => sigWire s.pub s.sig := by
  have one : ∀ (s : SigPub) (c : Bytes), s.toBytes = .ok c ↔ (s.pub.length = 33 ∧ s.sig.length = 64) ∧ c = sigWire s.pub s.sig := by
    intro s c
    unfold SigPub.toBytes sigWire
    constructor
    · intro h
      split at h
      · cases h
      split at h
      · cases h
      rename_i h1 h2
      cases h
      exact ⟨⟨by simpa using h1, by simpa using h2⟩, rfl⟩
    · rintro ⟨⟨h1, h2⟩, rfl⟩
      rw [if_neg (by simpa using h1), if_neg (by simpa using h2)]
  unfold sigpubsBytes
  rw [uint64ToUvarint_eq hl, Res.bind_ok]
  constructor
  · intro h
    obtain ⟨bs, hb, h⟩ := Res.bind_eq_ok.mp h
    cases h
    rw [mapAll_iff] at hb
    have : (∀ s ∈ l, s.pub.length = 33 ∧ s.sig.length = 64) ∧ bs = l.map fun s => sigWire s.pub s.sig := by
      clear hl h
      induction hb with
      | nil => simp
      | cons h _ ih =>
        obtain ⟨h1, rfl⟩ := (one _ _).mp h
        exact ⟨List.forall_mem_cons.mpr ⟨h1, ih.1⟩, by rw [List.map_cons, ih.2]⟩
    refine ⟨this.1, ?_⟩
    rw [this.2]; rfl
  · rintro ⟨h, rfl⟩
    have : mapAll SigPub.toBytes l = .ok (l.map fun s => sigWire s.pub s.sig) := by
      rw [mapAll_iff]
      refine List.forall₂_map_right_iff.mpr (List.forall₂_same.mpr ?_)
      intro s hs
      exact (one _ _).mpr ⟨h s hs, rfl⟩
    rw [this, Res.bind_ok]
    rfl

end Verif.Elastos
