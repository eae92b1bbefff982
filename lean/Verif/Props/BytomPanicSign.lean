import Verif.Props.BytomPanic

/-! C143: inserting signatures, verifying, creating. -/

namespace Verif
open Spec.BytomWire Spec.BytomCut Spec.Crash Spec.Eip55

namespace Bytom

theorem multiKeys_ne : ∀ ms, multiKeys ms ≠ .panic
  | [] => by simp [multiKeys]
  | m :: ms => by
    unfold multiKeys
    split
    · simp
    · split
      · simp
      · exact CreatePanic.bind_ne (multiKeys_ne ms) (by simp)

theorem multiKeys_iff : ∀ ms : List MultiTx, (∃ ks, multiKeys ms = .ok ks ∧ ∀ k ∈ ks, k.length = 32) ↔
    ∀ m ∈ ms, ∃ k, m.sigPub.pubkey = some k ∧ k.length = 32
  | [] => by simp [multiKeys]
  | m :: ms => by
    have ih := multiKeys_iff ms
    rw [List.forall_mem_cons, ← ih, multiKeys]
    cases hp : m.sigPub.pubkey with
    | none => simp
    | some k =>
      simp only
      by_cases hk : k.length = 32
      · rw [if_neg (by simp [hk])]
        constructor
        · rintro ⟨ks, h, h2⟩
          obtain ⟨ks', h1, h⟩ := Res.bind_eq_ok.mp h
          cases h
          exact ⟨⟨k, rfl, hk⟩, ks', h1, fun x hx => h2 x (by simp [hx])⟩
        · rintro ⟨_, ks', h1, h2⟩
          refine ⟨k :: ks', by rw [h1]; rfl, ?_⟩
          intro x hx
          rcases List.mem_cons.mp hx with rfl | hx
          · exact hk
          · exact h2 x hx
      · rw [if_pos hk]
        refine iff_of_false (by simp) ?_
        rintro ⟨⟨k', h, h'⟩, _⟩
        cases h
        exact hk h'

theorem multiKeys_len : ∀ (ms : List MultiTx) (ks : List Bytes), multiKeys ms = .ok ks → ∀ k ∈ ks, k.length = 32
  | [], ks, h => by cases h; simp
  | m :: ms, ks, h => by
    unfold multiKeys at h
    split at h
    · cases h
    · split at h
      · cases h
      · rename_i hk
        obtain ⟨ks', h1, h⟩ := Res.bind_eq_ok.mp h
        cases h
        intro x hx
        rcases List.mem_cons.mp hx with rfl | hx
        · simpa using hk
        · exact multiKeys_len ms ks' h1 x hx

theorem gather_ne (n : UInt8) : ∀ (ms : List MultiTx) (c : Nat), gatherSigs n c ms ≠ .panic
  | [], c => by simp [gatherSigs]
  | m :: ms, c => by
    unfold gatherSigs
    split
    · exact gather_ne n ms c
    · split
      · simp
      · split
        · simp
        · exact CreatePanic.bind_ne (gather_ne n ms (c + 1)) (by simp)

theorem gather_iff (n : UInt8) : ∀ (ms : List MultiTx) (c : Nat), c < n.toNat →
    ((∃ b c', gatherSigs n c ms = .ok (b, c') ∧ ¬ UInt8.ofNat c' < n) ↔
      ∃ sigs more : List Bytes, ms.filterMap (fun m => m.sigPub.signature) = sigs ++ more ∧ sigs.length = n.toNat - c ∧ ∀ s ∈ sigs, s.length = 64)
  | [], c, hc => by
    have hn := n.toNat_lt
    refine iff_of_false ?_ ?_
    · rintro ⟨b, c', h, h'⟩
      simp only [gatherSigs, Res.ok.injEq, Prod.mk.injEq] at h
      obtain ⟨_, rfl⟩ := h
      apply h'
      rw [UInt8.lt_iff_toNat_lt, UInt8.toNat_ofNat']
      omega
    · rintro ⟨s, m, h, hl, _⟩
      simp only [List.filterMap_nil, List.nil_eq, List.append_eq_nil_iff] at h
      rw [h.1] at hl
      simp at hl
      omega
  | m :: ms, c, hc => by
    have hn := n.toNat_lt
    unfold gatherSigs
    cases hm : m.sigPub.signature with
    | none =>
      simp only [List.filterMap_cons, hm]
      exact gather_iff n ms c hc
    | some s =>
      simp only [List.filterMap_cons, hm]
      have hhead : ∀ sigs more : List Bytes, ∀ tl : List Bytes, s :: tl = sigs ++ more → sigs.length = n.toNat - c → ∃ sigs', sigs = s :: sigs' ∧ tl = sigs' ++ more := by
        intro sigs more tl h hl
        rcases sigs with _ | ⟨a, sigs⟩
        · simp at hl; omega
        · simp only [List.cons_append, List.cons.injEq] at h
          exact ⟨sigs, by rw [h.1], h.2⟩
      by_cases h64 : s.length = 0x40
      · rw [if_neg (by simp [h64])]
        by_cases heq : UInt8.ofNat (c + 1) = n
        · have hcn : c + 1 = n.toNat := by
            have := congrArg UInt8.toNat heq
            rw [UInt8.toNat_ofNat'] at this
            omega
          rw [if_pos heq]
          refine iff_of_true ⟨_, _, rfl, by rw [heq]; exact UInt8.lt_irrefl n⟩ ⟨[s], ms.filterMap (fun m => m.sigPub.signature), rfl, by simp; omega, by simpa using h64⟩
        · rw [if_neg heq]
          have hcn : c + 1 < n.toNat := by
            rcases Nat.lt_or_ge (c + 1) n.toNat with h | h
            · exact h
            · exfalso
              apply heq
              apply UInt8.toNat_inj.mp
              rw [UInt8.toNat_ofNat']; omega
          have ih := gather_iff n ms (c + 1) hcn
          constructor
          · rintro ⟨b, c', h, h'⟩
            obtain ⟨⟨b1, c1⟩, h1, h⟩ := Res.bind_eq_ok.mp h
            simp only [Res.ok.injEq, Prod.mk.injEq] at h
            obtain ⟨sigs, more, e1, e2, e3⟩ := ih.mp ⟨b1, c1, h1, by rw [h.2]; exact h'⟩
            refine ⟨s :: sigs, more, by rw [e1]; rfl, by simp; omega, ?_⟩
            intro x hx
            rcases List.mem_cons.mp hx with rfl | hx
            · exact h64
            · exact e3 x hx
          · rintro ⟨sigs, more, e1, e2, e3⟩
            obtain ⟨sigs', rfl, e4⟩ := hhead _ _ _ e1 e2
            obtain ⟨b, c', h1, h2⟩ := ih.mpr ⟨sigs', more, e4, by simp at e2; omega, fun x hx => e3 x (by simp [hx])⟩
            exact ⟨_, c', by rw [h1]; rfl, h2⟩
      · rw [if_pos h64]
        refine iff_of_false (by simp) ?_
        rintro ⟨sigs, more, e1, e2, e3⟩
        obtain ⟨sigs', rfl, _⟩ := hhead _ _ _ e1 e2
        exact h64 (e3 s (by simp))

theorem multiBytes_ne (H : Hashes) (th : TxHash) : getMultiSigBytes H th ≠ .panic := by
  unfold getMultiSigBytes
  split
  · simp
  · have hk := multiKeys_ne th.multi
    cases hks : multiKeys th.multi with
    | panic => exact absurd hks hk
    | err => simp
    | ok ks =>
      rw [Res.bind_ok, signScript_ok _ ks (multiKeys_len _ _ hks), Res.bind_ok]
      apply CreatePanic.bind_ne (gather_ne _ _ _)
      rintro ⟨b, c⟩
      dsimp only
      split <;> simp

theorem multiBytes_iff (H : Hashes) (th : TxHash) (h0 : th.nRequired ≠ 0) : (∃ x, getMultiSigBytes H th = .ok x) ↔ Complete th := by
  have hpos : 0 < th.nRequired.toNat := by
    rcases Nat.eq_zero_or_pos th.nRequired.toNat with h | h
    · exact absurd (UInt8.toNat_inj.mp (by simpa using h)) h0
    · exact h
  have hg := gather_iff th.nRequired th.multi 0 hpos
  rw [Nat.sub_zero] at hg
  unfold Complete getMultiSigBytes
  rw [if_neg h0, ← multiKeys_iff, ← hg]
  constructor
  · rintro ⟨x, h⟩
    obtain ⟨ks, h1, h⟩ := Res.bind_eq_ok.mp h
    obtain ⟨s, h2, h⟩ := Res.bind_eq_ok.mp h
    obtain ⟨⟨b, c⟩, h3, h⟩ := Res.bind_eq_ok.mp h
    simp only at h
    split_ifs at h with h4
    exact ⟨⟨ks, h1, multiKeys_len _ _ h1⟩, b, c, h3, h4⟩
  · rintro ⟨⟨ks, h1, h1'⟩, b, c, h3, h4⟩
    rw [h1, Res.bind_ok, signScript_ok _ ks h1', Res.bind_ok, h3, Res.bind_ok]
    simp only
    rw [if_neg h4]
    exact ⟨_, rfl⟩

theorem insertOne_panic (H : Hashes) (th : TxHash) (ins : List TxIn) : insertOne H th ins = .panic ↔
    (th.nRequired = 0 ∧ th.normal = none) ∨ (ins = [] ∧ (th.nRequired = 0 ∨ Complete th)) := by
  unfold insertOne
  by_cases h0 : th.nRequired = 0
  · rw [if_neg (by simp [h0])]
    cases ins with
    | nil => simp [h0]
    | cons i is => cases hn : th.normal <;> simp [h0]
  · rw [if_pos h0, bindp (multiBytes_ne H th), ← multiBytes_iff H th h0]
    simp only [h0, false_and, false_or]
    constructor
    · rintro ⟨⟨m, c⟩, h1, h2⟩
      cases ins with
      | nil => exact ⟨rfl, _, h1⟩
      | cons i is => cases h2
    · rintro ⟨rfl, ⟨m, c⟩, h⟩
      exact ⟨_, h, rfl⟩

theorem insertOne_iff (H : Hashes) (th : TxHash) (ins : List TxIn) : (∃ i is, insertOne H th ins = .ok (i, is)) ↔ ins ≠ [] ∧ Fills th := by
  unfold insertOne Fills
  by_cases h0 : th.nRequired = 0
  · rw [if_neg (by simp [h0]), if_pos h0]
    cases ins with
    | nil => simp
    | cons i is => cases hn : th.normal <;> simp
  · rw [if_pos h0, if_neg h0, ← multiBytes_iff H th h0]
    constructor
    · rintro ⟨i, is, h⟩
      obtain ⟨⟨m, c⟩, h1, h⟩ := Res.bind_eq_ok.mp h
      cases ins with
      | nil => cases h
      | cons i is => exact ⟨by simp, _, h1⟩
    · rintro ⟨hne, ⟨m, c⟩, h⟩
      cases ins with
      | nil => exact absurd rfl hne
      | cons i is => exact ⟨_, _, by rw [h]; rfl⟩

theorem insertOne_tail (H : Hashes) (th : TxHash) (ins : List TxIn) {i : TxIn} {is : List TxIn} (h : insertOne H th ins = .ok (i, is)) : is = ins.tail := by
  unfold insertOne at h
  split at h
  · obtain ⟨⟨m, c⟩, _, h⟩ := Res.bind_eq_ok.mp h
    cases ins with
    | nil => cases h
    | cons j js => cases h; rfl
  · split at h
    · cases h; rfl
    · cases h

theorem insertLoop_panic (H : Hashes) : ∀ (ths : List TxHash) (ins : List TxIn), insertLoop H ths ins = .panic ↔
    ∃ before th after, ths = before ++ th :: after ∧ before.length ≤ ins.length ∧ (∀ w ∈ before, Fills w) ∧
      ((th.nRequired = 0 ∧ th.normal = none) ∨ (before.length = ins.length ∧ (th.nRequired = 0 ∨ Complete th)))
  | [], ins => by simp [insertLoop]
  | th :: ths, ins => by
    unfold insertLoop
    rw [Res.bind_eq_panic, insertOne_panic]
    constructor
    · rintro (h | ⟨⟨i, is⟩, h1, h2⟩)
      · refine ⟨[], th, ths, rfl, by simp, by simp, ?_⟩
        rcases h with h | ⟨rfl, h⟩
        · exact .inl h
        · exact .inr ⟨rfl, h⟩
      · have h2 := (DecPanic.bind_panic _ _ (by simp)).mp h2
        have ht := insertOne_tail H th ins h1
        obtain ⟨hne, hf⟩ := (insertOne_iff H th ins).mp ⟨i, is, h1⟩
        obtain ⟨before, x, after, rfl, hl, hb, hx⟩ := (insertLoop_panic H ths is).mp h2
        have hlen : ins.length = is.length + 1 := by
          rw [ht, List.length_tail]
          have := List.length_pos_iff.mpr hne
          omega
        refine ⟨th :: before, x, after, rfl, by simp; omega, ?_, ?_⟩
        · intro w hw
          rcases List.mem_cons.mp hw with rfl | hw
          · exact hf
          · exact hb w hw
        · rcases hx with hx | ⟨hx, hx'⟩
          · exact .inl hx
          · exact .inr ⟨by simp; omega, hx'⟩
    · rintro ⟨before, x, after, he, hl, hb, hx⟩
      rcases before with _ | ⟨y, before⟩
      · simp only [List.nil_append, List.cons.injEq] at he
        obtain ⟨rfl, rfl⟩ := he
        left
        rcases hx with hx | ⟨hx, hx'⟩
        · exact .inl hx
        · exact .inr ⟨List.length_eq_zero_iff.mp hx.symm, hx'⟩
      · simp only [List.cons_append, List.cons.injEq] at he
        obtain ⟨rfl, rfl⟩ := he
        have hne : ins ≠ [] := by
          rintro rfl
          simp at hl
        obtain ⟨i, is, h1⟩ := (insertOne_iff H th ins).mpr ⟨hne, hb th (by simp)⟩
        have ht := insertOne_tail H th ins h1
        have hlen : ins.length = is.length + 1 := by
          rw [ht, List.length_tail]
          have := List.length_pos_iff.mpr hne
          omega
        refine .inr ⟨(i, is), h1, (DecPanic.bind_panic _ _ (by simp)).mpr ((insertLoop_panic H _ is).mpr ⟨before, x, after, rfl, by simp at hl; omega,
          fun w hw => hb w (by simp [hw]), ?_⟩)⟩
        rcases hx with hx | ⟨hx, hx'⟩
        · exact .inl hx
        · exact .inr ⟨by simp at hx; omega, hx'⟩

theorem concatBytes_ne {α : Type} (f : α → Res Bytes) (hf : ∀ a, f a ≠ .panic) : ∀ l, concatBytes f l ≠ .panic
  | [] => by simp [concatBytes]
  | a :: l => by
    unfold concatBytes
    apply CreatePanic.bind_ne (hf a)
    intro b
    exact CreatePanic.bind_ne (concatBytes_ne f hf l) (by simp)

theorem txIn_ne (i : TxIn) : i.toBytes ≠ .panic := by
  unfold TxIn.toBytes
  split; · simp
  split; · simp
  split; · simp
  split; · simp
  split; · simp
  simp only
  split
  · simp
  · simp
  · rename_i sp _ _
    refine CreatePanic.bind_ne ?_ (by simp)
    unfold SigPub.toBytes
    split
    · split <;> simp
    · simp

theorem txOut_ne (o : TxOut) : o.toBytes ≠ .panic := by
  unfold TxOut.toBytes
  split; · simp
  split; · simp
  split <;> simp

theorem toBytes_ne (t : Transaction) : t.toBytes ≠ .panic := by
  unfold Transaction.toBytes
  split; · simp
  split; · simp
  split; · simp
  split; · simp
  apply CreatePanic.bind_ne (concatBytes_ne _ txIn_ne _)
  intro b
  exact CreatePanic.bind_ne (concatBytes_ne _ txOut_ne _) (by simp)

end Bytom

/-- C143, inserting: `InsertSignatureIntoEmptyTransaction` crashes exactly on the hexadecimal form of a text cut off as above, or of a transaction if one
of the records - all before it having been put into an input - is one of a single key without its data, or stands behind the last input and is one of a
single key or a complete one of a script. -/
theorem C143_insert (H : Hashes) (text : Bytes) (ths : List Bytom.TxHash) :
    Bytom.insertSignatures H text ths = .panic ↔ ∃ b, HexText text b ∧ (CutTx b ∨ ∃ t, IsTx false b t ∧
      ∃ before th after, ths = before ++ th :: after ∧ before.length ≤ t.inputs.length ∧ (∀ w ∈ before, Fills w) ∧
        ((th.nRequired = 0 ∧ th.normal = none) ∨ (before.length = t.inputs.length ∧ (th.nRequired = 0 ∨ Complete th)))) := by
  unfold Bytom.insertSignatures
  rw [Bytom.bindp (Hex.decode_ne_panic _)]
  simp only [Eip.decode_iff, Res.bind_eq_panic (x := Bytom.decodeRaw _), C143_read, C120_language_partial, ← Bytom.insertLoop_panic H]
  have key : ∀ b t, IsTx false b t → ((if ths.length = 0 then Res.err else if t.inputs.length = 0 then .err else if t.outputs.length = 0 then .err
      else Bytom.insertLoop H ths t.inputs >>= fun ins => Bytom.Transaction.toBytes { t with inputs := ins } >>= fun b => .ok (Hex.encode b)) = .panic ↔
        Bytom.insertLoop H ths t.inputs = .panic) := by
    intro b t ht
    obtain ⟨s1, s2, _⟩ := Bytom.sound_of ht
    by_cases h0 : ths.length = 0
    · rw [if_pos h0, List.length_eq_zero_iff.mp h0]
      simp [Bytom.insertLoop]
    · rw [if_neg h0, if_neg (by simpa using s1), if_neg (by simpa using s2)]
      apply DecPanic.bind_panic
      intro ins
      exact CreatePanic.bind_ne (Bytom.toBytes_ne _) (by simp)
  constructor
  · rintro ⟨b, hb, h | ⟨t, ht, h⟩⟩
    · exact ⟨b, hb, .inl h⟩
    · exact ⟨b, hb, .inr ⟨t, ht, (key b t ht).mp h⟩⟩
  · rintro ⟨b, hb, h | ⟨t, ht, h⟩⟩
    · exact ⟨b, hb, .inl h⟩
    · exact ⟨b, hb, .inr ⟨t, ht, (key b t ht).mpr h⟩⟩

namespace Bytom

theorem readSigs_ne : ∀ (n : Nat) (b : Bytes), readSigs n b ≠ .panic
  | 0, _ => by simp [readSigs]
  | n + 1, [] => by simp [readSigs]
  | n + 1, c :: r => by
    unfold readSigs
    simp only
    split
    · simp
    · apply CreatePanic.bind_ne (takeN_ne _ _)
      rintro ⟨s, r⟩
      exact CreatePanic.bind_ne (readSigs_ne n r) (by simp)

theorem readKeys_ne : ∀ (n : Nat) (b : Bytes), readKeys n b ≠ .panic
  | 0, _ => by simp [readKeys]
  | n + 1, [] => by simp [readKeys]
  | n + 1, c :: r => by
    unfold readKeys
    simp only
    split
    · simp
    · apply CreatePanic.bind_ne (takeN_ne _ _)
      rintro ⟨s, r⟩
      exact CreatePanic.bind_ne (readKeys_ne n r) (by simp)

theorem multiSigPubs_ne (m : Bytes) : getMultiSigPubs m ≠ .panic := by
  unfold getMultiSigPubs
  split
  · split
    · simp
    · apply CreatePanic.bind_ne (readSigs_ne _ _)
      rintro ⟨sigs, b⟩
      apply CreatePanic.bind_ne (take1_ne _)
      rintro ⟨l, b⟩
      dsimp only
      split
      · simp
      · apply CreatePanic.bind_ne (take1_ne _)
        rintro ⟨o, b⟩
        dsimp only
        split
        · simp
        · apply CreatePanic.bind_ne (readKeys_ne _ _)
          rintro ⟨pubs, b⟩
          apply CreatePanic.bind_ne (take1_ne _)
          rintro ⟨r, b⟩
          apply CreatePanic.bind_ne (take1_ne _)
          rintro ⟨n, b⟩
          dsimp only
          split
          · simp
          · split
            · simp
            · apply CreatePanic.bind_ne (take1_ne _)
              rintro ⟨c, b⟩
              dsimp only
              split
              · simp
              · split <;> simp
  · simp

theorem verifyIn_panic (verify : Bytes → Bytes → Bytes → Bool) (msg : Bytes) (i : TxIn) :
    (verifyIn verify msg i = .panic ↔ i.controlProgram.length ≠ 34 ∧ i.sigPub = none) ∧ verifyIn verify msg i ≠ .err := by
  unfold verifyIn
  by_cases h : i.controlProgram.length = 0x22
  · rw [if_pos h]
    cases hm : getMultiSigPubs (i.multiSig.getD []) with
    | panic => exact absurd hm (multiSigPubs_ne _)
    | err => simp [h]
    | ok p => simp [h]
  · rw [if_neg h]
    cases i.sigPub <;> simp [h]

theorem verifyLoop_panic (verify : Bytes → Bytes → Bytes → Bool) : ∀ (hs : List Bytes) (ins : List TxIn), hs.length = ins.length →
    verifyLoop verify hs ins ≠ .err ∧
    (verifyLoop verify hs ins = .panic → ∃ i ∈ ins, i.controlProgram.length ≠ 34 ∧ i.sigPub = none) ∧
    ((∃ i ∈ ins, i.controlProgram.length ≠ 34 ∧ i.sigPub = none) → verifyLoop verify hs ins ≠ .ok true)
  | [], [], _ => by simp [verifyLoop]
  | [], _ :: _, h => by simp at h
  | _ :: _, [], h => by simp at h
  | m :: hs, i :: is, h => by
    obtain ⟨h1, h2⟩ := verifyIn_panic verify m i
    obtain ⟨r1, r2, r3⟩ := verifyLoop_panic verify hs is (by simpa using h)
    unfold verifyLoop
    cases hv : verifyIn verify m i with
    | err => exact absurd hv h2
    | panic => exact ⟨by simp, fun _ => ⟨i, by simp, h1.mp hv⟩, fun _ => by simp⟩
    | ok v =>
      cases v with
      | false => exact ⟨by simp, by simp, by simp⟩
      | true =>
        simp only
        refine ⟨r1, fun g => ?_, ?_⟩
        · obtain ⟨j, hj, hj'⟩ := r2 g
          exact ⟨j, by simp [hj], hj'⟩
        · rintro ⟨j, hj, hj'⟩
          rcases List.mem_cons.mp hj with rfl | hj
          · rw [h1.mpr hj'] at hv
            cases hv
          · exact r3 ⟨j, hj, hj'⟩

theorem collect_length {α : Type} (f : Nat → Res Bytes) : ∀ (l : List α) (k : Nat) (xs : List Bytes), collectIDs f k l = .ok xs → xs.length = l.length
  | [], _, xs, h => by cases h; rfl
  | _ :: l, k, xs, h => by
    unfold collectIDs at h
    obtain ⟨x, _, h⟩ := Res.bind_eq_ok.mp h
    obtain ⟨ys, h2, h⟩ := Res.bind_eq_ok.mp h
    cases h
    simp [collect_length f l (k + 1) ys h2]

theorem sound_clone {t : Transaction} (h : Sound t) : Sound (cloneEmpty t) := by
  obtain ⟨h1, h2, h3, h4⟩ := h
  refine ⟨by simpa [cloneEmpty] using h1, h2, ?_, h4⟩
  intro i hi
  simp only [cloneEmpty, List.mem_map] at hi
  obtain ⟨j, hj, rfl⟩ := hi
  exact h3 j hj

/-- On a decoded transaction the verifier goes through the inputs. -/
theorem verifyRaw_loop (H : Hashes) (verify : Bytes → Bytes → Bytes → Bool) {text b : Bytes} {t : Transaction} (hb : HexText text b) (ht : IsTx false b t) :
    ∃ hs : List Bytes, hs.length = t.inputs.length ∧ verifyRaw H verify text = verifyLoop verify hs t.inputs := by
  have hs := sound_of ht
  obtain ⟨xs, hx⟩ := collect_sound (getSigHash H (cloneEmpty t)) (cloneEmpty t).inputs 0 (fun j hj => sigHash_sound H (sound_clone hs) (by omega))
  have hl := collect_length _ _ _ _ hx
  refine ⟨xs, by rw [hl]; simp [cloneEmpty], ?_⟩
  unfold verifyRaw allHashes
  rw [(Eip.decode_iff _ _).mpr hb]
  simp only
  rw [(C120_language_partial _ _).mpr ht]
  simp only
  rw [if_neg (by simpa using hs.1), hx]

end Bytom

/-- C143, verifying: `VerifyRawTransaction` crashes on the hexadecimal form of a text cut off as above; on a transaction it crashes only if an input
without single-key signature has a control program of another length than 34 bytes. Such a transaction is never accepted, and if it is the first
input the function does crash. -/
theorem C143_verify (H : Hashes) (verify : Bytes → Bytes → Bytes → Bool) (text : Bytes) :
    (Bytom.verifyRaw H verify text = .panic → ∃ b, HexText text b ∧ (CutTx b ∨ ∃ t, IsTx false b t ∧
      ∃ i ∈ t.inputs, i.controlProgram.length ≠ 34 ∧ i.sigPub = none)) ∧
    (∀ b, HexText text b → CutTx b → Bytom.verifyRaw H verify text = .panic) ∧
    (∀ b t, HexText text b → IsTx false b t → (∃ i ∈ t.inputs, i.controlProgram.length ≠ 34 ∧ i.sigPub = none) →
      Bytom.verifyRaw H verify text = .panic ∨ Bytom.verifyRaw H verify text = .ok false) ∧
    (∀ b t, HexText text b → IsTx false b t → (∃ i ∈ t.inputs.head?, i.controlProgram.length ≠ 34 ∧ i.sigPub = none) →
      Bytom.verifyRaw H verify text = .panic) := by
  refine ⟨?_, ?_, ?_, ?_⟩
  · intro h
    cases hd : Hex.decode text with
    | panic => exact absurd hd (Hex.decode_ne_panic _)
    | err => simp [Bytom.verifyRaw, hd] at h
    | ok b =>
      have hb := (Eip.decode_iff _ _).mp hd
      refine ⟨b, hb, ?_⟩
      cases hr : Bytom.decodeRaw b with
      | panic => exact .inl ((C143_read b).mp hr)
      | err => simp [Bytom.verifyRaw, hd, hr] at h
      | ok t =>
        have ht := (C120_language_partial _ _).mp hr
        obtain ⟨hs, hl, he⟩ := Bytom.verifyRaw_loop H verify hb ht
        rw [he] at h
        exact .inr ⟨t, ht, (Bytom.verifyLoop_panic verify hs t.inputs hl).2.1 h⟩
  · intro b hb hc
    simp only [Bytom.verifyRaw, (Eip.decode_iff _ _).mpr hb, (C143_read b).mpr hc]
  · intro b t hb ht hi
    obtain ⟨hs, hl, he⟩ := Bytom.verifyRaw_loop H verify hb ht
    obtain ⟨r1, _, r3⟩ := Bytom.verifyLoop_panic verify hs t.inputs hl
    rw [he]
    have := r3 hi
    cases hv : Bytom.verifyLoop verify hs t.inputs with
    | panic => exact .inl rfl
    | err => exact absurd hv r1
    | ok v =>
      cases v with
      | true => exact absurd hv this
      | false => exact .inr rfl
  · rintro b t hb ht ⟨i, hi, hi'⟩
    obtain ⟨hs, hl, he⟩ := Bytom.verifyRaw_loop H verify hb ht
    rw [he]
    match hs, hin : t.inputs, hl with
    | [], [], _ => rw [hin] at hi; simp at hi
    | m :: hs, j :: js, _ =>
      rw [hin] at hi
      simp only [List.head?_cons, Option.mem_def, Option.some.injEq] at hi
      subst hi
      unfold Bytom.verifyLoop
      rw [(Bytom.verifyIn_panic verify m j).1.mpr hi']

/-- C143: making and reading multi-signature scripts and signing never crash. -/
theorem C143_never (H : Hashes) :
    (∀ required keys test, Bytom.createMultiSig H required keys test ≠ .panic) ∧
    (∀ th script, Bytom.padMultiSig th script ≠ .panic) ∧
    (∀ sign pubOf hash key, Bytom.signHash sign pubOf hash key ≠ .panic) := by
  refine ⟨?_, ?_, ?_⟩
  · intro required keys test
    unfold Bytom.createMultiSig
    split; · simp
    split; · simp
    split; · simp
    refine CreatePanic.bind_ne ?_ ?_
    · unfold Bytom.signScript
      refine CreatePanic.bind_ne ?_ (by simp)
      by_cases h : ∀ k ∈ keys, k.length = 32
      · rw [Bytom.scriptKeys_ok keys h]; simp
      · simp only [not_forall] at h
        obtain ⟨k, hk, hn⟩ := h
        rw [Bytom.scriptKeys_err keys ⟨k, hk, hn⟩]; simp
    · intro s
      exact CreatePanic.bind_ne (Bytom.encodeSegWit_ne _ _ _) (by simp)
  · intro th script
    unfold Bytom.padMultiSig Bytom.getMultiSigDetail
    apply CreatePanic.bind_ne (Hex.decode_ne_panic _)
    intro s
    refine CreatePanic.bind_ne ?_ (by simp)
    apply CreatePanic.bind_ne (Bytom.take1_ne _)
    rintro ⟨o, b⟩
    dsimp only
    split
    · simp
    · apply CreatePanic.bind_ne (Bytom.readKeys_ne _ _)
      rintro ⟨ks, b⟩
      apply CreatePanic.bind_ne (Bytom.take1_ne _)
      rintro ⟨r, b⟩
      dsimp only
      split
      · simp
      · apply CreatePanic.bind_ne (Bytom.take1_ne _)
        rintro ⟨n, b⟩
        dsimp only
        split
        · simp
        · apply CreatePanic.bind_ne (Bytom.take1_ne _)
          rintro ⟨c, b⟩
          dsimp only
          split
          · simp
          · split <;> simp
  · intro sign pubOf hash key
    unfold Bytom.signHash
    apply CreatePanic.bind_ne (Hex.decode_ne_panic _)
    intro h
    split
    · simp
    · split <;> simp

end Verif
