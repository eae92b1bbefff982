import Verif.Props.BytomWire

/-! C110 and C111, what is refused: texts that are no scripts, and inputs with too few signatures. -/

namespace Verif
open Spec.Bytom

namespace Bytom

theorem readKeys_iff : ∀ (fuel : Nat) (b : Bytes) (ks : List Bytes) (r : Bytes), b.length < fuel →
    (readKeys fuel b = .ok (ks, r) ↔ b = ks.flatMap (fun k => 0x20 :: k) ++ r ∧ (∀ k ∈ ks, k.length = 32) ∧ ∃ c r', r = c :: r' ∧ c ≠ 0x20) := by
  intro fuel
  induction fuel with
  | zero => intro b ks r h; omega
  | succ fuel ih =>
    intro b ks r hb
    rcases b with _ | ⟨c, b⟩
    · simp only [readKeys, reduceCtorEq, false_iff, not_and]
      intro h
      have := List.append_eq_nil_iff.mp h.symm
      rintro _ ⟨c, r', h', _⟩
      rw [this.2] at h'
      cases h'
    · simp only [readKeys]
      split
      · rename_i hc
        simp only [Res.ok.injEq, Prod.mk.injEq]
        constructor
        · rintro ⟨rfl, rfl⟩
          exact ⟨rfl, by simp, c, b, rfl, hc⟩
        · rintro ⟨h, _, _⟩
          rcases ks with _ | ⟨k, ks⟩
          · exact ⟨rfl, by simpa using h⟩
          · simp only [List.flatMap_cons, List.cons_append, List.cons.injEq] at h
            exact absurd h.1 hc
      · rename_i hc
        have hc := not_not.mp hc
        subst hc
        simp only [Res.bind_eq_ok, Prod.exists, takeN_iff, Res.ok.injEq, Prod.mk.injEq]
        constructor
        · rintro ⟨k, b1, ⟨rfl, hk⟩, ks', b2, h, rfl, rfl⟩
          have hb' : b1.length < fuel := by simp at hb; omega
          obtain ⟨rfl, h2, h3⟩ := (ih b1 ks' b2 hb').mp h
          refine ⟨by simp, ?_, h3⟩
          intro x hx
          rcases List.mem_cons.mp hx with rfl | hx
          · exact hk
          · exact h2 x hx
        · rintro ⟨h, h2, h3⟩
          rcases ks with _ | ⟨k, ks⟩
          · obtain ⟨c, r', rfl, hne⟩ := h3
            simp only [List.flatMap_nil, List.nil_append, List.cons.injEq] at h
            exact absurd h.1.symm hne
          · simp only [List.flatMap_cons, List.cons_append, List.append_assoc, List.cons.injEq, true_and] at h
            subst h
            have hk := h2 k (by simp)
            refine ⟨k, _, ⟨rfl, hk⟩, ks, r, ?_, rfl, rfl⟩
            exact (ih _ ks r (by simp at hb ⊢; omega)).mpr ⟨rfl, fun x hx => h2 x (by simp [hx]), h3⟩

theorem gather_count (n : UInt8) : ∀ (ms : List MultiTx) (c : Nat) (b : Bytes) (c' : Nat), gatherSigs n c ms = .ok (b, c') →
    c' ≤ c + (ms.filterMap (fun m => m.sigPub.signature)).length := by
  intro ms
  induction ms with
  | nil => intro c b c' h; simp only [gatherSigs, Res.ok.injEq, Prod.mk.injEq] at h; simp [h.2]
  | cons m ms ih =>
    intro c b c' h
    unfold gatherSigs at h
    cases hm : m.sigPub.signature with
    | none =>
      rw [hm] at h
      simp only at h
      simp only [List.filterMap_cons, hm]
      exact ih c b c' h
    | some s =>
      rw [hm] at h
      simp only [ite_err] at h
      obtain ⟨_, h⟩ := h
      simp only [List.filterMap_cons, hm, List.length_cons]
      split at h
      · simp only [Res.ok.injEq, Prod.mk.injEq] at h
        omega
      · simp only [Res.bind_eq_ok, Prod.exists, Res.ok.injEq, Prod.mk.injEq] at h
        obtain ⟨b1, c1, h1, _, rfl⟩ := h
        have := ih _ _ _ h1
        omega

theorem insertLoop_each (H : Hashes) : ∀ (ths : List TxHash) (ins r : List TxIn), insertLoop H ths ins = .ok r → ∀ th ∈ ths, ∃ l x, insertOne H th l = .ok x := by
  intro ths
  induction ths with
  | nil => intro ins r _ th h; simp at h
  | cons t ths ih =>
    intro ins r h th hth
    unfold insertLoop at h
    simp only [Res.bind_eq_ok, Prod.exists] at h
    obtain ⟨i, is, h1, r', h2, _⟩ := h
    rcases List.mem_cons.mp hth with rfl | hth
    · exact ⟨_, _, h1⟩
    · exact ih _ _ h2 th hth

end Bytom

/-- C110, refusals: `PadMultiSig` succeeds only for the text of a script: 0xae, keys of 32 bytes behind their length, a byte other than 0x50 for the
number of signatures, 0x50 plus the number of keys, 0xad; the result has these keys in order and this number. -/
theorem C110_pad_only (th th' : Bytom.TxHash) (scriptHex : Bytes) :
    Bytom.padMultiSig th scriptHex = .ok th' ↔ ∃ (keys : List Bytes) (op : UInt8), (∀ k ∈ keys, k.length = 32) ∧ op ≠ 0x20 ∧ op ≠ 0x50 ∧
      Hex.decode scriptHex = .ok ([0xae] ++ keys.flatMap (fun k => 0x20 :: k) ++ [op, UInt8.ofNat (0x50 + keys.length), 0xad]) ∧
      th' = { th with nRequired := op - 0x50, multi := keys.map (fun k => ⟨Hex.encode k, {}⟩) } := by
  unfold Bytom.padMultiSig Bytom.getMultiSigDetail
  simp only [Res.bind_eq_ok, Prod.exists, Bytom.take1_iff, Bytom.ite_err, ne_eq, not_not, Res.ok.injEq, Prod.mk.injEq]
  constructor
  · rintro ⟨s, hs, m, r, ⟨o, b, rfl, rfl, ks, b1, hk, op, b2, rfl, hop, n, b3, rfl, hn, c, b4, rfl, rfl, rfl, rfl, rfl⟩, rfl⟩
    obtain ⟨rfl, h2, c, r', hc, hne⟩ := (Bytom.readKeys_iff _ b _ _ (by omega)).mp hk
    simp only [List.cons.injEq] at hc
    obtain ⟨rfl, rfl⟩ := hc
    refine ⟨ks, op, h2, hne, ?_, ?_, rfl⟩
    · rintro rfl; exact hop (by decide)
    · rw [hs]
      have : n = UInt8.ofNat (0x50 + ks.length) := by
        rw [← Bytom.opcode', ← hn, UInt8.add_comm, UInt8.sub_add_cancel]
      rw [this]
      simp
  · rintro ⟨keys, op, h1, h2, h3, h4, rfl⟩
    refine ⟨_, h4, keys.map (fun k => ⟨Hex.encode k, {}⟩), op - 0x50, ⟨0xae, keys.flatMap (fun k => 0x20 :: k) ++ [op, UInt8.ofNat (0x50 + keys.length), 0xad], by simp, rfl,
      keys, [op, UInt8.ofNat (0x50 + keys.length), 0xad], ?_, op, _, rfl, ?_, _, _, rfl, Bytom.sub_opcode _, _, _, rfl, rfl, rfl, rfl, rfl⟩, rfl⟩
    · exact (Bytom.readKeys_iff _ _ _ _ (by omega)).mpr ⟨rfl, h1, op, _, rfl, h2⟩
    · intro h
      apply h3
      have := congrArg (· + 0x50) h
      simpa [UInt8.sub_add_cancel] using this

/-- C111, refusals: no transaction is returned when some input of a script has fewer signatures than the script requires. -/
theorem C111_too_few (H : Hashes) (txHex : Bytes) (ths : List Bytom.TxHash) (th : Bytom.TxHash) (hth : th ∈ ths) (h0 : th.nRequired ≠ 0)
    (hfew : (th.multi.filterMap (fun m => m.sigPub.signature)).length < th.nRequired.toNat) (out : Bytes) :
    Bytom.insertSignatures H txHex ths ≠ .ok out := by
  intro h
  unfold Bytom.insertSignatures at h
  simp only [Res.bind_eq_ok, Bytom.ite_err] at h
  obtain ⟨b, _, t, _, _, _, _, ins, hl, _⟩ := h
  obtain ⟨l, x, h1⟩ := Bytom.insertLoop_each H _ _ _ hl th hth
  unfold Bytom.insertOne at h1
  rw [if_pos h0] at h1
  simp only [Res.bind_eq_ok, Prod.exists] at h1
  obtain ⟨m, c, hm, _⟩ := h1
  unfold Bytom.getMultiSigBytes at hm
  simp only [Bytom.ite_err, Res.bind_eq_ok, Prod.exists] at hm
  obtain ⟨_, ks, _, s, _, b', count, hg, hc, _⟩ := hm
  have hle := Bytom.gather_count _ _ _ _ _ hg
  rw [UInt8.not_lt, UInt8.le_iff_toNat_le, UInt8.toNat_ofNat'] at hc
  have := Nat.mod_le count (2 ^ 8)
  omega

example : ∃ th : Bytom.TxHash, th.nRequired ≠ 0 ∧ th.multi.length = 2 ∧ (th.multi.filterMap (fun m => m.sigPub.signature)).length < th.nRequired.toNat :=
  ⟨{ hash := [], nRequired := 2, multi := [⟨[], ⟨some (List.replicate 64 1), some []⟩⟩, ⟨[], {}⟩] }, by decide, rfl, by decide⟩


namespace Bytom

theorem gather_take : ∀ (ms : List MultiTx) (m : UInt8) (count : Nat) (sigs : List Bytes), ms.filterMap (fun m => m.sigPub.signature) = sigs →
    (∀ s ∈ sigs, s.length = 64) → count < m.toNat → m.toNat - count ≤ sigs.length →
    gatherSigs m count ms = .ok ((sigs.take (m.toNat - count)).flatMap str, m.toNat)
  | [], m, count, sigs, h, _, h1, h2 => by
    simp only [List.filterMap_nil] at h
    subst h
    simp at h2
    omega
  | x :: ms, m, count, sigs, h, hs, h1, h2 => by
    unfold gatherSigs
    have hm := m.toNat_lt
    cases hx : x.sigPub.signature with
    | none =>
      simp only [List.filterMap_cons, hx] at h
      exact gather_take ms m count sigs h hs h1 h2
    | some s =>
      simp only [List.filterMap_cons, hx] at h
      subst h
      have h64 := hs s (by simp)
      simp only
      rw [if_neg (by simp [h64])]
      have hstr : str s = 0x40 :: s := by rw [str_small (by omega), h64]; rfl
      by_cases he : count + 1 = m.toNat
      · rw [if_pos (by rw [he]; simp), show m.toNat - count = 1 by omega]
        simp [hstr, he]
      · rw [if_neg (by
          intro hc
          have := congrArg UInt8.toNat hc
          rw [UInt8.toNat_ofNat'] at this
          omega)]
        rw [gather_take ms m (count + 1) _ rfl (fun y hy => hs y (by simp [hy])) (by omega) (by simp at h2; omega)]
        rw [Res.bind_ok, show m.toNat - count = (m.toNat - (count + 1)) + 1 by omega]
        simp [hstr]

theorem varint_head (n : Nat) : ∃ r, varint n = UInt8.ofNat (if n < 128 then n else n % 128 + 128) :: r ∧ (n < 128 → r = []) ∧
    (128 ≤ n → r = varint (n / 128)) := by
  rw [varint_def]
  split
  · exact ⟨[], rfl, fun _ => rfl, fun h => by omega⟩
  · exact ⟨_, rfl, fun h => by omega, fun _ => rfl⟩

/-- The first byte tells a number below 128. -/
theorem varint_first {n k : Nat} {r : Bytes} (hk : k < 128) (h : varint n ++ r = UInt8.ofNat k :: r') : n = k ∧ r = r' := by
  obtain ⟨v, h1, h2, h3⟩ := varint_head n
  rw [h1, List.cons_append, List.cons.injEq] at h
  have := congrArg UInt8.toNat h.1
  rw [UInt8.toNat_ofNat', UInt8.toNat_ofNat'] at this
  split at this
  · rename_i hn
    rw [h2 hn] at h
    exact ⟨by omega, h.2⟩
  · omega

theorem sigs_flat_length : ∀ (l : List Bytes), (∀ s ∈ l, s.length = 64) → (l.flatMap str).length = 65 * l.length
  | [], _ => rfl
  | s :: l, h => by
    have h64 := h s (by simp)
    rw [List.flatMap_cons, List.length_append, sigs_flat_length l (fun x hx => h x (by simp [hx])), str_small (by omega)]
    simp [h64]
    omega

/-- The two constants before the signatures are right for two signatures and at most three keys only. -/
theorem witness_constant {m : Nat} {sigs : List Bytes} {sc rest : Bytes} {x : UInt8} (hm : 1 ≤ m) (hl : sigs.length = m) (h64 : ∀ s ∈ sigs, s.length = 64)
    (hne : m ≠ 2 ∨ 136 ≤ sc.length) : x :: 1 :: 3 :: rest ≠ str (varint (m + 1) ++ (sigs ++ [sc]).flatMap str) := by
  intro h
  rw [show ∀ b : Bytes, str b = varint b.length ++ b from fun _ => rfl] at h
  set P := (varint (m + 1) ++ (sigs ++ [sc]).flatMap str).length with hP
  obtain ⟨v, h1, h2, h3⟩ := varint_head P
  rw [h1, List.cons_append, List.cons.injEq] at h
  by_cases hp : P < 128
  · rw [h2 hp, List.nil_append] at h
    obtain ⟨e, _⟩ := varint_first (k := 1) (by decide) h.2.symm
    omega
  · rw [h3 (by omega)] at h
    obtain ⟨e1, e2⟩ := varint_first (k := 1) (by decide) h.2.symm
    obtain ⟨e3, _⟩ := varint_first (k := 3) (by decide) e2
    rcases hne with hne | hne
    · omega
    · have : (varint sc.length).length + sc.length + 65 * m + 1 ≤ P := by
        rw [hP, List.flatMap_append, List.length_append, List.length_append, sigs_flat_length sigs h64]
        have := varint_pos (m + 1)
        simp only [List.flatMap_cons, List.flatMap_nil, List.append_nil, str, List.length_append, hl]
        omega
      omega

end Bytom

/-- C111 is false of all other numbers of signatures and keys: unless two signatures and at most three keys are required, what is inserted for a
script is not the serialisation of signatures and script. Together with `C111_two_partial` this covers all scripts. -/
theorem C111_counts_violated (H : Hashes) (t : Tx) (hf : t.Fits) (i : In) (hi : t.ins = [i]) (hp : i.position < 128) (th : Bytom.TxHash)
    (keys sigs : List Bytes) (h0 : th.nRequired ≠ 0) (hne : th.nRequired ≠ 2 ∨ 4 ≤ keys.length)
    (h3 : ∀ k ∈ keys, k.length = 32) (h4 : th.multi.map (fun m => m.sigPub.pubkey) = keys.map some)
    (h5 : th.multi.filterMap (fun m => m.sigPub.signature) = sigs) (h6 : ∀ s ∈ sigs, s.length = 64) (henough : th.nRequired.toNat ≤ sigs.length)
    (h7 : i.program = [0, 0x20] ++ sha3 H (multiScript th.nRequired.toNat keys)) :
    ∃ out, Bytom.insertSignatures H (Hex.encode t.unsigned) [th] = .ok out ∧
      out ≠ Hex.encode (t.wire [sigs.take th.nRequired.toNat ++ [multiScript th.nRequired.toNat keys]]) := by
  have hsc := Bytom.script_length th.nRequired.toNat keys h3
  have hins : Bytom.InFits i := hf.2.2.2.2.2.1 i (by rw [hi]; simp)
  have hpos0 : 1 ≤ th.nRequired.toNat := by
    rcases Nat.eq_zero_or_pos th.nRequired.toNat with h | h
    · exact absurd (UInt8.toNat_inj.mp (by simpa using h)) h0
    · exact h
  set sc := multiScript th.nRequired.toNat keys with hscdef
  have hg := Bytom.gather_take th.multi th.nRequired 0 sigs h5 h6 hpos0 (by omega)
  rw [Nat.sub_zero] at hg
  set b := (sigs.take th.nRequired.toNat).flatMap str with hb
  obtain ⟨x, rest, hw⟩ : ∃ x rest, Bytom.getMultiSigBytes H th = .ok (x :: 1 :: 3 :: rest, [0, 0x20] ++ sha3 H sc) := by
    unfold Bytom.getMultiSigBytes
    rw [if_neg h0, Bytom.multiKeys_ok _ keys h4 h3]
    simp only [Res.bind_ok]
    rw [Bytom.signScript_ok _ keys h3, hg]
    simp only [Res.bind_ok]
    rw [if_neg (by simp)]
    exact ⟨_, _, rfl⟩
  have hone : Bytom.insertOne H th [Bytom.mkIn i] = .ok (({ Bytom.mkIn i with sigPub := none, multiSig := (some
      (x :: 1 :: 3 :: rest)) } : Bytom.TxIn), []) := by
    unfold Bytom.insertOne
    rw [if_pos h0, hw]
    simp only [Res.bind_ok]
    rw [← h7]
    rfl
  obtain ⟨a1, a2, a3, a4, a5, a6, a7⟩ := id hf
  have hout : ∀ o ∈ t.outs, (Bytom.mkOut o).toBytes = .ok (outWire o) := fun o ho => Bytom.mkOut_toBytes (a7 o ho)
  have hpos : ∀ j ∈ t.ins, j.position < 128 := by rw [hi]; simpa using hp
  refine ⟨Hex.encode ([7] ++ varint 1 ++ varint t.time ++ [1] ++ ([1] ++ str ([1] ++ str (Bytom.commit i)) ++
    (x :: 1 :: 3 :: rest)) ++ varint t.outs.length ++ t.outs.flatMap outWire), ?_, ?_⟩
  · unfold Bytom.insertSignatures
    rw [Hex.decode_encode]
    simp only [Res.bind_ok]
    rw [Tx.unsigned, Bytom.decode_wire hf hpos (by simp) (Bytom.wit_nil t)]
    simp only [Res.bind_ok, Bytom.mkTx, Bytom.decoded_nil, List.length_map]
    rw [if_neg (by simp), if_neg (by omega), if_neg (by omega)]
    have hloop : Bytom.insertLoop H [th] (t.ins.map Bytom.mkIn) = .ok [{ Bytom.mkIn i with sigPub := none, multiSig := (some
        (x :: 1 :: 3 :: rest)) }] := by
      rw [hi, List.map_cons, List.map_nil]
      unfold Bytom.insertLoop
      rw [hone]
      rfl
    rw [hloop]
    simp only [Res.bind_ok]
    unfold Bytom.Transaction.toBytes
    have p1 := Bytom.varint_pos t.time
    have p2 := Bytom.varint_pos 1
    simp only [List.length_map, List.length_singleton]
    rw [if_neg (by omega), if_neg (by omega), if_neg (by omega), if_neg (by omega)]
    simp only [Bytom.concatBytes]
    rw [Bytom.toBytes_eq hins, Bytom.concat_ok Bytom.TxOut.toBytes Bytom.mkOut outWire t.outs hout, Bytom.varint_small a4]
    simp only [Res.bind_ok, List.append_nil]
    simp
  · intro e
    have e' := congrArg Hex.decode e
    rw [Hex.decode_encode, Hex.decode_encode] at e'
    have e2 := Res.ok.inj e'
    unfold Tx.wire at e2
    rw [hi] at e2
    simp only [List.zipWith_cons_cons, List.zipWith_nil_left, List.flatten_cons, List.flatten_nil, List.append_nil, Bytom.inWire_eq] at e2
    rw [Bytom.varint_small (n := [i].length) (by simp)] at e2
    have e3 := List.append_cancel_right (List.append_cancel_right e2)
    have e4 := List.append_cancel_left e3
    have e5 := List.append_cancel_left e4
    have hl : (sigs.take th.nRequired.toNat).length = th.nRequired.toNat := by simp; omega
    refine Bytom.witness_constant hpos0 hl (fun s hs => h6 s (List.mem_of_mem_take hs)) (sc := sc) ?_ (e5.trans ?_)
    · rcases hne with h | h
      · exact Or.inl (fun hc => h (UInt8.toNat_inj.mp (by simpa using hc)))
      · exact Or.inr (by omega)
    · rw [List.length_append, hl]
      rfl

/-- Three signatures of three keys meet the hypotheses. -/
example : ∃ (th : Bytom.TxHash) (keys sigs : List Bytes), th.nRequired ≠ 0 ∧ (th.nRequired ≠ 2 ∨ 4 ≤ keys.length) ∧
    (∀ k ∈ keys, k.length = 32) ∧ th.multi.map (fun m => m.sigPub.pubkey) = keys.map some ∧
    th.multi.filterMap (fun m => m.sigPub.signature) = sigs ∧ (∀ s ∈ sigs, s.length = 64) ∧ th.nRequired.toNat ≤ sigs.length :=
  ⟨{ hash := [], nRequired := 3, multi := List.replicate 3 ⟨[], ⟨some (List.replicate 64 1), some (List.replicate 32 1)⟩⟩ },
    List.replicate 3 (List.replicate 32 1), List.replicate 3 (List.replicate 64 1), by decide, by decide, by decide, rfl, rfl, by decide, by decide⟩

end Verif
