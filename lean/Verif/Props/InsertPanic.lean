import Verif.Spec.InsertCrash
import Verif.Props.SignPanic
import Verif.Props.BtcInsert
import Verif.Props.CombinePanicHc

/-! C141: exactly when inserting signatures crashes. -/

namespace Verif
open Verif.Btc Verif.BtcVariants
open Verif.Spec Verif.Spec.Cut Verif.Spec.Eip55 Verif.Spec.InsertCrash Verif.Spec.Crash

namespace InsertPanic

/-! ### One record -/

theorem zero_iff {sig : Bytes} (hl : sig.length = 64) : ¬ SignPanic.NoZeroHalf sig ↔ ZeroHalf sig := by
  unfold SignPanic.NoZeroHalf ZeroHalf
  constructor
  · intro h
    by_contra hc
    push Not at hc
    exact h fun _ => hc
  · rintro h hn
    have := hn hl
    tauto

theorem sig_cases {sig : Bytes} (hl : sig.length = 64) (st : UInt8) :
    (ZeroHalf sig → encodeSig sig st = .panic) ∧ (¬ ZeroHalf sig → ∃ b, encodeSig sig st = .ok b) := by
  constructor
  · intro h
    exact SignPanic.sig_panic hl ((zero_iff hl).mpr h) st
  · intro h
    unfold ZeroHalf at h
    push Not at h
    obtain ⟨R, hR, _⟩ := derBody_spec (sig.take 32) (by simp [hl]) h.1
    obtain ⟨S, hS, _⟩ := derBody_spec (sig.drop 32) (by simp [hl]) h.2
    unfold encodeSig
    rw [slice_ok (by omega) (by omega), Res.bind_ok]
    simp only [List.drop_zero]
    rw [hR, Res.bind_ok, hS]
    exact ⟨_, rfl⟩

theorem filled_iff (p : Btc.SigPub) : (∃ sig, Filled p sig) ↔ (p.pubkey.getD []).length = 33 ∧ (p.signature.getD []).length = 64 := by
  unfold Filled
  constructor
  · rintro ⟨sig, h1, h2, pub, h3, h4⟩
    rw [h1, h3]; exact ⟨h4, h2⟩
  · rintro ⟨h1, h2⟩
    cases hs : p.signature with
    | none => rw [hs] at h2; simp at h2
    | some sig =>
      cases hp : p.pubkey with
      | none => rw [hp] at h1; simp at h1
      | some pub => rw [hs] at h2; rw [hp] at h1; exact ⟨sig, rfl, h2, pub, rfl, h1⟩

theorem count_iff : ∀ (l : List MultiTx) (c d : UInt8), countSigs l c = .ok d ↔
    (∀ m ∈ l, Unfilled m.sigPub ∨ ∃ sig, Filled m.sigPub sig) ∧ d = c + UInt8.ofNat (l.filterMap (fun m => m.sigPub.signature)).length
  | [], c, d => by simp [countSigs, eq_comm]
  | m :: l, c, d => by
    rw [countSigs, List.forall_mem_cons, filled_iff]
    by_cases h0 : m.sigPub.pubkey = none ∧ m.sigPub.signature = none
    · rw [if_pos h0, count_iff l c d, List.filterMap_cons_none (f := fun m : MultiTx => m.sigPub.signature) h0.2]
      simp [Unfilled, h0.1, h0.2]
    · rw [if_neg h0]
      by_cases h1 : (m.sigPub.pubkey.getD []).length ≠ 33 ∨ (m.sigPub.signature.getD []).length ≠ 64
      · rw [if_pos h1]
        refine iff_of_false (by simp) ?_
        rintro ⟨⟨h | h, _⟩, _⟩
        · exact h0 ⟨h.2, h.1⟩
        · rcases h1 with h1 | h1
          · exact h1 h.1
          · exact h1 h.2
      · rw [if_neg h1, count_iff l (c + 1) d]
        push Not at h1
        obtain ⟨sig, hs, _⟩ := (filled_iff m.sigPub).mpr h1
        rw [List.filterMap_cons_some (f := fun m : MultiTx => m.sigPub.signature) hs, List.length_cons]
        have e : c + UInt8.ofNat ((l.filterMap (fun m => m.sigPub.signature)).length + 1) = c + 1 + UInt8.ofNat (l.filterMap (fun m => m.sigPub.signature)).length := by
          rw [UInt8.ofNat_add, UInt8.add_comm (UInt8.ofNat _) _, UInt8.add_assoc]
          rfl
        rw [e]
        simp [h1.1, h1.2]

theorem append_cases (n : UInt8) : ∀ (l : List MultiTx) (c : UInt8) (k : Nat), c.toNat + k = n.toNat → k ≠ 0 →
    (∀ m ∈ l, ∀ sig, m.sigPub.signature = some sig → sig.length = 64) →
    ((∃ sig ∈ (l.filterMap (fun m => m.sigPub.signature)).take k, ZeroHalf sig) → appendSigs n l c = .panic) ∧
    ((∀ sig ∈ (l.filterMap (fun m => m.sigPub.signature)).take k, ¬ ZeroHalf sig) → ∃ b, appendSigs n l c = .ok b)
  | [], c, k, _, _, _ => by simp [appendSigs]
  | m :: l, c, k, hk, h0, hl => by
    unfold appendSigs
    cases hs : m.sigPub.signature with
    | none =>
      rw [List.filterMap_cons_none (f := fun m : MultiTx => m.sigPub.signature) hs]
      exact append_cases n l c k hk h0 fun m hm => hl m (by simp [hm])
    | some sig =>
      rw [List.filterMap_cons_some (f := fun m : MultiTx => m.sigPub.signature) hs]
      obtain ⟨k, rfl⟩ : ∃ j, k = j + 1 := ⟨k - 1, by omega⟩
      rw [List.take_succ_cons]
      obtain ⟨s1, s2⟩ := sig_cases (hl m (by simp) sig hs) m.sigType
      have hn := n.toNat_lt
      have hc1 : (c + 1).toNat = c.toNat + 1 := by
        rw [UInt8.toNat_add, UInt8.toNat_one]; omega
      have hend : c + 1 = n ↔ k = 0 := by
        rw [← UInt8.toNat_inj, hc1]; omega
      simp only
      by_cases hz : ZeroHalf sig
      · rw [s1 hz]
        refine ⟨fun _ => rfl, fun h => absurd hz (h sig (by simp))⟩
      · obtain ⟨b, hb⟩ := s2 hz
        rw [hb, Res.bind_ok]
        by_cases hk0 : k = 0
        · rw [if_pos (hend.mpr hk0), hk0]
          refine ⟨?_, fun _ => ⟨_, rfl⟩⟩
          rintro ⟨sig', hm, hz'⟩
          simp only [List.take_zero, List.mem_singleton] at hm
          rw [hm] at hz'
          exact absurd hz' hz
        · rw [if_neg (fun h => hk0 (hend.mp h))]
          obtain ⟨i1, i2⟩ := append_cases n l (c + 1) k (by rw [hc1]; omega) hk0 fun m hm => hl m (by simp [hm])
          constructor
          · rintro ⟨sig', hm, hz'⟩
            rcases List.mem_cons.mp hm with rfl | hm
            · exact absurd hz' hz
            · rw [i1 ⟨sig', hm, hz'⟩]; rfl
          · intro h
            obtain ⟨b', hb'⟩ := i2 fun sig' hm => h sig' (List.mem_cons_of_mem _ hm)
            rw [hb']
            exact ⟨_, rfl⟩

theorem script_cases (h : TxHash) (redeem : Bytes) (seg : Bool) :
    (encodeToScript h redeem seg = .panic ↔ Crashes seg h redeem) ∧ ((∃ s, encodeToScript h redeem seg = .ok s) ↔ Fits seg h redeem) := by
  unfold encodeToScript Crashes Fits Single Several
  by_cases h0 : h.nRequired = 0
  · rw [if_pos h0]
    simp only [h0, ne_eq, not_true_eq_false, false_and, exists_false, or_false, true_and]
    cases hn : h.normal with
    | none => simp
    | some n =>
      simp only [reduceCtorEq, false_or, Option.some.injEq, exists_eq_left']
      by_cases hf : ∃ sig, Filled n.sigPub sig
      · obtain ⟨sig, hs, hl, pub, hp, hpl⟩ := hf
        have hu : ∀ s, Filled n.sigPub s ↔ s = sig := by
          intro s
          constructor
          · rintro ⟨e, _⟩; rw [hs] at e; cases e; rfl
          · rintro rfl; exact ⟨hs, hl, pub, hp, hpl⟩
        simp only [hu, exists_eq_left, hs, hp, Option.getD_some]
        rw [if_neg (by simp [hl]), if_neg (by simp [hpl])]
        unfold encodeSigPub
        obtain ⟨s1, s2⟩ := sig_cases hl n.sigType
        by_cases hz : ZeroHalf sig
        · rw [s1 hz]; exact ⟨iff_of_true rfl hz, iff_of_false (by simp) (by simpa using hz)⟩
        · obtain ⟨b, hb⟩ := s2 hz
          rw [hb]; exact ⟨iff_of_false (by simp) hz, iff_of_true ⟨_, rfl⟩ hz⟩
      · have hf' := hf
        rw [filled_iff] at hf
        push Not at hf'
        have e : (if (n.sigPub.signature.getD []).length ≠ 64 then Res.err else if (n.sigPub.pubkey.getD []).length ≠ 33 then .err
            else encodeSigPub (n.sigPub.signature.getD []) (n.sigPub.pubkey.getD []) n.sigType) = Res.err := by
          split_ifs with c1 c2
          · rfl
          · rfl
          · push Not at c1 c2; exact absurd ⟨c2, c1⟩ hf
        rw [e]
        exact ⟨iff_of_false (by simp) (by rintro ⟨s, h, _⟩; exact hf' s h), iff_of_false (by simp) (by rintro ⟨s, h, _⟩; exact hf' s h)⟩
  · rw [if_neg h0]
    simp only [h0, false_and, exists_false, false_or, ne_eq, not_false_eq_true, true_and]
    cases hc : countSigs h.multi 0 with
    | panic => exact absurd hc (SignPanic.count_ne_panic _ _)
    | err =>
      have : ¬ ∀ m ∈ h.multi, Unfilled m.sigPub ∨ ∃ sig, Filled m.sigPub sig := by
        intro hh
        have := (count_iff h.multi 0 _).mpr ⟨hh, rfl⟩
        rw [hc] at this; cases this
      exact ⟨iff_of_false (by simp) (by rintro ⟨_, ⟨h, _⟩, _⟩; exact this h), iff_of_false (by simp) (by rintro ⟨_, ⟨h, _⟩, _⟩; exact this h)⟩
    | ok c =>
      obtain ⟨hall, hcc⟩ := (count_iff h.multi 0 c).mp hc
      rw [Res.bind_ok]
      have hlen := SignPanic.count_len hc
      have hreq : ¬ c < h.nRequired ↔ h.nRequired.toNat ≤ (h.multi.filterMap (fun m => m.sigPub.signature)).length % 256 := by
        rw [hcc, UInt8.lt_iff_toNat_lt, not_lt]
        simp
      have hset : ∀ Q : List Bytes → Prop, (∃ sigs, ((∀ m ∈ h.multi, Unfilled m.sigPub ∨ ∃ sig, Filled m.sigPub sig) ∧ sigs = h.multi.filterMap (fun m => m.sigPub.signature) ∧
          h.nRequired.toNat ≤ sigs.length % 256) ∧ Q sigs) ↔ ¬ c < h.nRequired ∧ Q (h.multi.filterMap (fun m => m.sigPub.signature)) := by
        intro Q
        rw [hreq]
        constructor
        · rintro ⟨_, ⟨_, rfl, h2⟩, h3⟩; exact ⟨h2, h3⟩
        · rintro ⟨h2, h3⟩; exact ⟨_, ⟨hall, rfl, h2⟩, h3⟩
      rw [hset, hset]
      by_cases c1 : c < h.nRequired
      · rw [if_pos c1]; simp [c1]
      rw [if_neg c1]
      simp only [c1, not_false_eq_true, true_and]
      unfold Pushable
      by_cases c2 : redeem = []
      · rw [if_pos c2]; simp [c2]
      rw [if_neg c2]
      simp only [c2, not_false_eq_true, true_and, ne_eq]
      obtain ⟨a1, a2⟩ := append_cases h.nRequired h.multi 0 h.nRequired.toNat (by simp) (by
        intro hz; exact h0 (UInt8.toNat_inj.mp hz)) hlen
      have hpush : ∀ (k : Bytes → Res Bytes), (∀ b, ∃ s, k b = .ok s) →
          ((((appendSigs h.nRequired h.multi 0) >>= k) = .panic ↔ ∃ sig ∈ (h.multi.filterMap (fun m => m.sigPub.signature)).take h.nRequired.toNat, ZeroHalf sig) ∧
          ((∃ s, ((appendSigs h.nRequired h.multi 0) >>= k) = .ok s) ↔ ∀ sig ∈ (h.multi.filterMap (fun m => m.sigPub.signature)).take h.nRequired.toNat, ¬ ZeroHalf sig)) := by
        intro k hk
        by_cases hz : ∃ sig ∈ (h.multi.filterMap (fun m => m.sigPub.signature)).take h.nRequired.toNat, ZeroHalf sig
        · rw [a1 hz]
          refine ⟨iff_of_true rfl hz, iff_of_false (by simp) ?_⟩
          push Not
          exact hz
        · push Not at hz
          obtain ⟨b, hb⟩ := a2 hz
          obtain ⟨s, hs⟩ := hk b
          rw [hb, Res.bind_ok, hs]
          exact ⟨iff_of_false (by simp) (by push Not; exact hz), iff_of_true ⟨_, rfl⟩ hz⟩
      cases seg with
      | true =>
        simp only [Bool.not_true, Bool.false_eq_true, if_false, true_or, true_and, Res.bind_ok]
        exact hpush _ fun b => ⟨_, rfl⟩
      | false =>
        simp only [Bool.not_false, if_true, Bool.false_eq_true, false_or]
        by_cases c3 : redeem.length < 65536
        · simp only [c3, true_and]
          have hp : ∃ p, (if redeem.length < 0x4c then Res.ok (UInt8.ofNat redeem.length :: redeem)
              else if redeem.length ≤ 0xff then .ok (0x4c :: UInt8.ofNat redeem.length :: redeem)
              else if redeem.length ≤ 0xffff then .ok (0x4d :: (leBytes 2 redeem.length ++ redeem)) else .err) = .ok p := by
            split_ifs
            · exact ⟨_, rfl⟩
            · exact ⟨_, rfl⟩
            · exact ⟨_, rfl⟩
            · omega
          obtain ⟨p, hp⟩ := hp
          rw [hp, Res.bind_ok]
          refine hpush _ fun b => ?_
          split_ifs <;> exact ⟨_, rfl⟩
        · rw [if_neg (by omega), if_neg (by omega), if_neg (by omega)]
          simp [c3]

/-! ### The kinds -/

/-- The three functions that recognise the kinds, in one. -/
def check (asset loose : Bool) (lockScript redeemScript : Bytes) : Res (Bytes × Bytes × InType) :=
  match Hex.decode lockScript with
  | .ok s =>
    if (s.length = 25 ∨ (asset = true ∧ s.length = 55)) ∧ s[0]? = some 0x76 ∧ s[1]? = some 0xa9 ∧ s[2]? = some 0x14 ∧ s[23]? = some 0x88 ∧
        s[24]? = some 0xac then
      (if loose = false ∧ redeemScript ≠ [] then .err else .ok (s, [], .p2pkh))
    else if (s.length = 23 ∨ (asset = true ∧ s.length = 53)) ∧ s[0]? = some 0xa9 ∧ s[1]? = some 0x14 ∧ s[22]? = some 0x87 then
      match Hex.decode redeemScript with
      | .ok r =>
        if r.length = 22 ∧ r[0]? = some 0x00 ∧ r[1]? = some 0x14 then .ok (s, r, .p2wpkh)
        else if r.length ≥ 37 ∧ r.getLast? = some 0xae then .ok (s, r, .multi)
        else .err
      | _ => .err
    else if s.length = 22 ∧ s[0]? = some 0x00 ∧ s[1]? = some 0x14 then
      (if redeemScript ≠ [] then .err else .ok (s, [], .bech32))
    else .err
  | _ => .err

theorem check_btc (l r : Bytes) : Btc.checkScriptType l r = check false false l r := by
  unfold Btc.checkScriptType check
  simp only [Bool.false_eq_true, false_and, or_false, true_and]
  cases Hex.decode l <;> rfl

theorem check_bch (l r : Bytes) : checkBch l r = check false true l r := by
  unfold checkBch check
  simp only [Bool.false_eq_true, Bool.true_eq_false, false_and, or_false, if_false]
  cases Hex.decode l <;> rfl

theorem check_cxc (l r : Bytes) : checkCxc l r = check true false l r := by
  unfold checkCxc check
  simp only [true_and]
  cases Hex.decode l <;> rfl

theorem shape_or {s : Bytes} {asset : Bool} {P : Prop} {script : Bytes → Bytes} {n : Nat}
    (h1 : (s.length = n ∧ P) ↔ ∃ h tail, h.length = 20 ∧ tail.length = n - n ∧ s = script h ++ tail)
    (h2 : (s.length = n + 30 ∧ P) ↔ ∃ h tail, h.length = 20 ∧ tail.length = n + 30 - n ∧ s = script h ++ tail) :
    ((s.length = n ∨ (asset = true ∧ s.length = n + 30)) ∧ P) ↔ ∃ h tail, h.length = 20 ∧ (tail = [] ∨ (asset = true ∧ tail.length = 30)) ∧ s = script h ++ tail := by
  constructor
  · rintro ⟨h | ⟨ha, h⟩, hp⟩
    · obtain ⟨k, tail, a, b, c⟩ := h1.mp ⟨h, hp⟩
      exact ⟨k, tail, a, .inl (List.length_eq_zero_iff.mp (by omega)), c⟩
    · obtain ⟨k, tail, a, b, c⟩ := h2.mp ⟨h, hp⟩
      exact ⟨k, tail, a, .inr ⟨ha, by omega⟩, c⟩
  · rintro ⟨k, tail, a, rfl | ⟨ha, b⟩, c⟩
    · obtain ⟨x, y⟩ := h1.mpr ⟨k, [], a, by simp, c⟩
      exact ⟨.inl x, y⟩
    · obtain ⟨x, y⟩ := h2.mpr ⟨k, tail, a, by omega, c⟩
      exact ⟨.inr ⟨ha, x⟩, y⟩

theorem opens_iff (asset loose : Bool) (u : TxUnlock) (ty : InType) (script : Bytes) :
    (∃ lock, check asset loose u.lockScript u.redeemScript = .ok (lock, script, ty)) ↔ Opens asset loose u ty script := by
  unfold check
  cases hd : Hex.decode u.lockScript with
  | err => cases ty <;> simp [Opens, hd]
  | panic => cases ty <;> simp [Opens, hd]
  | ok s =>
    have a1 := shape_or (s := s) (asset := asset) (script := p2pkhScript) (n := 25)
      (keyHash_shape s 25 (by omega)) (keyHash_shape s 55 (by omega))
    have a2 := shape_or (s := s) (asset := asset) (script := p2shScript) (n := 23)
      (scriptHash_shape s 23 (by omega)) (scriptHash_shape s 53 (by omega))
    have a3 := program_shape s
    have b1 : ∀ h tail k t, h.length = 20 → s = p2pkhScript h ++ tail → s = p2shScript k ++ t → False := by
      rintro h tail k t hl rfl e
      simp [p2pkhScript, p2shScript] at e
    have b2 : ∀ h tail k, h.length = 20 → s = p2pkhScript h ++ tail → s = witnessV0Script k → False := by
      rintro h tail k hl rfl e
      simp [p2pkhScript, witnessV0Script] at e
    have b3 : ∀ h tail k, h.length = 20 → s = p2shScript h ++ tail → s = witnessV0Script k → False := by
      rintro h tail k hl rfl e
      simp [p2shScript, witnessV0Script] at e
    dsimp only
    by_cases c1 : (s.length = 25 ∨ (asset = true ∧ s.length = 55)) ∧ s[0]? = some 0x76 ∧ s[1]? = some 0xa9 ∧ s[2]? = some 0x14 ∧ s[23]? = some 0x88 ∧
        s[24]? = some 0xac
    · rw [if_pos c1]
      obtain ⟨h, tail, h1, h2, h3⟩ := a1.mp c1
      cases ty with
      | p2pkh =>
        simp only [Opens, hd, Res.ok.injEq]
        by_cases hl : loose = false ∧ u.redeemScript ≠ []
        · rw [if_pos hl]
          refine iff_of_false (by simp) ?_
          rintro ⟨_, _, _, _, _, _, h | h⟩
          · rw [hl.1] at h; cases h
          · exact hl.2 h
        · rw [if_neg hl]
          simp only [Res.ok.injEq, Prod.mk.injEq, and_true]
          constructor
          · rintro ⟨_, _, rfl⟩
            refine ⟨rfl, h, tail, h1, h2, h3, ?_⟩
            by_contra hc
            push Not at hc
            exact hl ⟨by simpa using hc.1, hc.2⟩
          · rintro ⟨rfl, _⟩; exact ⟨_, rfl, rfl⟩
      | p2wpkh =>
        refine iff_of_false (by split_ifs <;> simp) ?_
        rintro ⟨k, t, _, k1, _, k2, _⟩
        rw [hd] at k2
        exact b1 h tail k t h1 h3 (Res.ok.inj k2)
      | multi =>
        refine iff_of_false (by split_ifs <;> simp) ?_
        rintro ⟨k, t, k1, _, k2, _⟩
        rw [hd] at k2
        exact b1 h tail k t h1 h3 (Res.ok.inj k2)
      | bech32 =>
        refine iff_of_false (by split_ifs <;> simp) ?_
        rintro ⟨_, _, k, k1, k2⟩
        rw [hd] at k2
        exact b2 h tail k h1 h3 (Res.ok.inj k2)
      | empty => exact iff_of_false (by split_ifs <;> simp) (by simp [Opens])
    rw [if_neg c1]
    have n1 : ¬ Opens asset loose u .p2pkh script := by
      rintro ⟨_, h, tail, h1, h2, h3, _⟩
      rw [hd] at h3
      exact c1 (a1.mpr ⟨h, tail, h1, h2, Res.ok.inj h3⟩)
    by_cases c2 : (s.length = 23 ∨ (asset = true ∧ s.length = 53)) ∧ s[0]? = some 0xa9 ∧ s[1]? = some 0x14 ∧ s[22]? = some 0x87
    · rw [if_pos c2]
      obtain ⟨h, tail, h1, h2, h3⟩ := a2.mp c2
      have nb : ¬ Opens asset loose u .bech32 script := by
        rintro ⟨_, _, k, k1, k2⟩
        rw [hd] at k2
        exact b3 h tail k h1 h3 (Res.ok.inj k2)
      cases hr : Hex.decode u.redeemScript with
      | err =>
        refine iff_of_false (by simp) ?_
        cases ty with
        | p2pkh => exact n1
        | bech32 => exact nb
        | empty => simp [Opens]
        | p2wpkh => simp [Opens, hr]
        | multi => simp [Opens, hr]
      | panic => exact absurd hr (Hex.decode_ne_panic _)
      | ok r =>
        dsimp only
        have a4 := program_shape r
        by_cases d1 : r.length = 22 ∧ r[0]? = some 0x00 ∧ r[1]? = some 0x14
        · rw [if_pos d1]
          obtain ⟨k, k1, k2⟩ := a4.mp d1
          cases ty with
          | p2pkh => exact iff_of_false (by simp) n1
          | bech32 => exact iff_of_false (by simp) nb
          | empty => exact iff_of_false (by simp) (by simp [Opens])
          | p2wpkh =>
            simp only [Res.ok.injEq, Prod.mk.injEq, and_true]
            constructor
            · rintro ⟨_, _, rfl⟩; exact ⟨h, tail, k, h1, h2, by rw [hd, h3], hr, k1, k2⟩
            · rintro ⟨_, _, _, _, _, _, e, _⟩; rw [hr] at e; exact ⟨_, rfl, Res.ok.inj e⟩
          | multi =>
            refine iff_of_false (by simp) ?_
            rintro ⟨_, _, _, _, _, e, e', _⟩
            rw [hr] at e
            rw [← Res.ok.inj e] at e'
            omega
        · rw [if_neg d1]
          have nw : ¬ Opens asset loose u .p2wpkh script := by
            rintro ⟨_, _, k, _, _, _, e, k1, k2⟩
            rw [hr] at e
            exact d1 (a4.mpr ⟨k, k1, (Res.ok.inj e).trans k2⟩)
          by_cases d2 : r.length ≥ 37 ∧ r.getLast? = some 0xae
          · rw [if_pos d2]
            cases ty with
            | p2pkh => exact iff_of_false (by simp) n1
            | bech32 => exact iff_of_false (by simp) nb
            | empty => exact iff_of_false (by simp) (by simp [Opens])
            | p2wpkh => exact iff_of_false (by simp) nw
            | multi =>
              simp only [Res.ok.injEq, Prod.mk.injEq, and_true]
              constructor
              · rintro ⟨_, _, rfl⟩; exact ⟨h, tail, h1, h2, by rw [hd, h3], hr, d2.1, d2.2⟩
              · rintro ⟨_, _, _, _, _, e, _⟩; rw [hr] at e; exact ⟨_, rfl, Res.ok.inj e⟩
          · rw [if_neg d2]
            refine iff_of_false (by simp) ?_
            cases ty with
            | p2pkh => exact n1
            | bech32 => exact nb
            | empty => simp [Opens]
            | p2wpkh => exact nw
            | multi =>
              rintro ⟨_, _, _, _, _, e, e1, e2⟩
              rw [hr] at e
              rw [← Res.ok.inj e] at e1 e2
              exact d2 ⟨e1, e2⟩
    rw [if_neg c2]
    have n2 : ¬ Opens asset loose u .p2wpkh script := by
      rintro ⟨h, tail, _, h1, h2, h3, _⟩
      rw [hd] at h3
      exact c2 (a2.mpr ⟨h, tail, h1, h2, Res.ok.inj h3⟩)
    have n3 : ¬ Opens asset loose u .multi script := by
      rintro ⟨h, tail, h1, h2, h3, _⟩
      rw [hd] at h3
      exact c2 (a2.mpr ⟨h, tail, h1, h2, Res.ok.inj h3⟩)
    by_cases c3 : s.length = 22 ∧ s[0]? = some 0x00 ∧ s[1]? = some 0x14
    · rw [if_pos c3]
      obtain ⟨k, k1, k2⟩ := a3.mp c3
      cases ty with
      | p2pkh => exact iff_of_false (by split_ifs <;> simp) n1
      | p2wpkh => exact iff_of_false (by split_ifs <;> simp) n2
      | multi => exact iff_of_false (by split_ifs <;> simp) n3
      | empty => exact iff_of_false (by split_ifs <;> simp) (by simp [Opens])
      | bech32 =>
        by_cases hr : u.redeemScript = []
        · rw [if_neg (by simpa using hr)]
          simp only [Res.ok.injEq, Prod.mk.injEq, and_true]
          constructor
          · rintro ⟨_, _, rfl⟩; exact ⟨rfl, hr, k, k1, by rw [hd, k2]⟩
          · rintro ⟨rfl, _⟩; exact ⟨_, rfl, rfl⟩
        · rw [if_pos hr]
          exact iff_of_false (by simp) (by rintro ⟨_, h, _⟩; exact hr h)
    · rw [if_neg c3]
      refine iff_of_false (by simp) ?_
      cases ty with
      | p2pkh => exact n1
      | p2wpkh => exact n2
      | multi => exact n3
      | empty => simp [Opens]
      | bech32 =>
        rintro ⟨_, _, k, k1, k2⟩
        rw [hd] at k2
        exact c3 (a3.mpr ⟨k, k1, Res.ok.inj k2⟩)

/-! ### The loop -/

/-- The kinds of a package. -/
def Knows (V : Variant) (opens : TxUnlock → InType → Bytes → Prop) : Prop :=
  ∀ u ty script, (∃ lock, V.check u.lockScript u.redeemScript = .ok (lock, script, ty)) ↔ opens u ty script

theorem loop_step (V : Variant) (hK : ∀ l r lock redeem ty, V.check l r = .ok (lock, redeem, ty) → ty ≠ .empty) (H : Hashes) (seg sw : Bool) (hashes : List TxHash) (idx : Nat) (i : TxIn) (is : List TxIn) (u : TxUnlock) (us : List TxUnlock)
    {lock script : Bytes} {ty : InType} (hc : V.check u.lockScript u.redeemScript = .ok (lock, script, ty)) (hs : seg = true ∨ ty = .p2pkh ∨ ty = .multi) :
    ∃ new : Bytes → TxIn, BtcVariants.insertLoop V H seg sw hashes idx (i :: is) (u :: us) =
      (index hashes idx >>= fun h => encodeToScript h script seg >>= fun s => BtcVariants.insertLoop V H seg sw hashes (idx + 1) is us >>= fun rest => .ok (rest.map (new s :: ·))) := by
  rw [BtcVariants.insertLoop, hc]
  have h0 := hK _ _ _ _ _ hc
  cases ty with
  | empty => exact absurd rfl h0
  | p2pkh =>
    refine ⟨fun s => { i with inType := .p2pkh, scriptPub := [], scriptSig := s }, ?_⟩
    cases index hashes idx with
    | err => rfl
    | panic => rfl
    | ok h =>
      simp only [Res.bind_ok]
  | multi =>
    refine ⟨fun s => { i with inType := .multi, scriptPub := if sw then [0x23, 0x22, 0x00, 0x20] ++ H.hash .sha256 script else [], scriptSig := [], scriptMulti := s }, ?_⟩
    cases index hashes idx with
    | err => rfl
    | panic => rfl
    | ok h =>
      simp only [Res.bind_ok]
  | p2wpkh =>
    have : seg = true := by simpa using hs
    subst this
    refine ⟨fun s => { i with inType := .p2wpkh, scriptPub := script, scriptSig := s }, ?_⟩
    cases index hashes idx with
    | err => rfl
    | panic => rfl
    | ok h =>
      simp only [Res.bind_ok]
      cases encodeToScript h script true <;> rfl
  | bech32 =>
    have : seg = true := by simpa using hs
    subst this
    refine ⟨fun s => { i with inType := .bech32, scriptPub := [], scriptSig := s }, ?_⟩
    cases index hashes idx with
    | err => rfl
    | panic => rfl
    | ok h =>
      simp only [Res.bind_ok]
      cases encodeToScript h script true <;> rfl

theorem loop_panic (V : Variant) (opens : TxUnlock → InType → Bytes → Prop) (hV : Knows V opens) (hP : ∀ l r, V.check l r ≠ .panic)
    (hK : ∀ l r lock redeem ty, V.check l r = .ok (lock, redeem, ty) → ty ≠ .empty) (H : Hashes) (seg sw : Bool) (hashes : List TxHash) :
    ∀ (us : List TxUnlock) (is : List TxIn) (idx : Nat), is.length = us.length → (seg = false → ∀ u ∈ us, ∃ s, opens u .p2pkh s ∨ opens u .multi s) →
    (BtcVariants.insertLoop V H seg sw hashes idx is us = .panic ↔
      ∃ (k : Nat) (u : TxUnlock) (kind : InType) (script : Bytes), us[k]? = some u ∧ opens u kind script ∧ (∀ h, hashes[idx + k]? = some h → Crashes seg h script) ∧
        ∀ j < k, ∃ v h kind' script', us[j]? = some v ∧ hashes[idx + j]? = some h ∧ opens v kind' script' ∧ Fits seg h script')
  | [], [], idx, _, _ => by simp [BtcVariants.insertLoop]
  | [], _ :: _, _, h, _ => by simp at h
  | _ :: _, [], _, h, _ => by simp at h
  | u :: us, i :: is, idx, hl, hoff => by
    have ih := loop_panic V opens hV hP hK H seg sw hashes us is (idx + 1) (by simpa using hl) fun h w hw => hoff h w (by simp [hw])
    cases hc : V.check u.lockScript u.redeemScript with
    | panic => exact absurd hc (hP _ _)
    | err =>
      have hno : ∀ ty s, ¬ opens u ty s := by
        intro ty s h
        obtain ⟨lock, h⟩ := (hV u ty s).mpr h
        rw [hc] at h; cases h
      rw [BtcVariants.insertLoop, hc]
      refine iff_of_false (by simp) ?_
      rintro ⟨k, w, kind, script, h1, h2, _, h4⟩
      cases k with
      | zero =>
        simp only [List.getElem?_cons_zero, Option.some.injEq] at h1
        subst h1
        exact hno _ _ h2
      | succ k =>
        obtain ⟨v, _, _, _, e, _, e', _⟩ := h4 0 (by omega)
        simp only [List.getElem?_cons_zero, Option.some.injEq] at e
        subst e
        exact hno _ _ e'
    | ok x =>
      obtain ⟨lock, script, ty⟩ := x
      have hop : opens u ty script := (hV u ty script).mp ⟨lock, hc⟩
      have huniq : ∀ ty' s', opens u ty' s' → ty' = ty ∧ s' = script := by
        intro ty' s' h
        obtain ⟨l', h⟩ := (hV u ty' s').mpr h
        rw [hc] at h
        cases h
        exact ⟨rfl, rfl⟩
      have hs : seg = true ∨ ty = .p2pkh ∨ ty = .multi := by
        cases seg with
        | true => exact .inl rfl
        | false =>
          obtain ⟨s, h | h⟩ := hoff rfl u (by simp)
          · exact .inr (.inl (huniq _ _ h).1.symm)
          · exact .inr (.inr (huniq _ _ h).1.symm)
      obtain ⟨new, hstep⟩ := loop_step V hK H seg sw hashes idx i is u us hc hs
      rw [hstep]
      cases hh : hashes[idx]? with
      | none =>
        have : index hashes idx = .panic := by unfold index; rw [hh]
        rw [this]
        refine iff_of_true rfl ⟨0, u, ty, script, rfl, hop, ?_, by simp⟩
        intro h e
        rw [Nat.add_zero, hh] at e; cases e
      | some h =>
        have hi : index hashes idx = .ok h := by unfold index; rw [hh]
        obtain ⟨s1, s2⟩ := script_cases h script seg
        rw [hi, Res.bind_ok]
        cases he : encodeToScript h script seg with
        | panic =>
          refine iff_of_true rfl ⟨0, u, ty, script, rfl, hop, ?_, by simp⟩
          intro h' e
          rw [Nat.add_zero, hh] at e
          cases e
          exact s1.mp he
        | err =>
          rw [he] at s1 s2
          refine iff_of_false (by simp) ?_
          rintro ⟨k, w, kind, sc, h1, h2, h3, h4⟩
          cases k with
          | zero =>
            simp only [List.getElem?_cons_zero, Option.some.injEq] at h1
            subst h1
            obtain ⟨_, rfl⟩ := huniq _ _ h2
            have := s1.mpr (h3 h (by rw [Nat.add_zero]; exact hh))
            cases this
          | succ k =>
            obtain ⟨v, h', _, sc', e, e2, e3, e4⟩ := h4 0 (by omega)
            simp only [List.getElem?_cons_zero, Option.some.injEq] at e
            subst e
            obtain ⟨_, rfl⟩ := huniq _ _ e3
            rw [Nat.add_zero, hh] at e2
            cases e2
            obtain ⟨_, h⟩ := s2.mpr e4
            cases h
        | ok sc =>
          rw [he] at s1 s2
          have hfit := s2.mp ⟨_, rfl⟩
          have hnc : ¬ Crashes seg h script := fun hcr => by have := s1.mpr hcr; cases this
          rw [Res.bind_ok, DecPanic.bind_panic _ _ (by intro a; simp), ih]
          constructor
          · rintro ⟨k, w, kind, sc', h1, h2, h3, h4⟩
            refine ⟨k + 1, w, kind, sc', by simpa using h1, h2, ?_, ?_⟩
            · intro h' e; exact h3 h' (by rw [← e]; congr 1; omega)
            · intro j hj
              cases j with
              | zero => exact ⟨u, h, ty, script, rfl, hh, hop, hfit⟩
              | succ j =>
                obtain ⟨v, h', k', s', e1, e2, e3, e4⟩ := h4 j (by omega)
                exact ⟨v, h', k', s', by simpa using e1, by rw [← e2]; congr 1; omega, e3, e4⟩
          · rintro ⟨k, w, kind, sc', h1, h2, h3, h4⟩
            cases k with
            | zero =>
              simp only [List.getElem?_cons_zero, Option.some.injEq] at h1
              subst h1
              obtain ⟨_, rfl⟩ := huniq _ _ h2
              exact absurd (h3 h (by rw [Nat.add_zero]; exact hh)) hnc
            | succ k =>
              refine ⟨k, w, kind, sc', by simpa using h1, h2, ?_, ?_⟩
              · intro h' e; exact h3 h' (by rw [← e]; congr 1; omega)
              · intro j hj
                obtain ⟨v, h', k', s', e1, e2, e3, e4⟩ := h4 (j + 1) (by omega)
                exact ⟨v, h', k', s', by simpa using e1, by rw [← e2]; congr 1; omega, e3, e4⟩

theorem go_cases (V : Variant) (opens : TxUnlock → InType → Bytes → Prop) (hV : Knows V opens) (hP : ∀ l r, V.check l r ≠ .panic)
    (hK : ∀ l r lock redeem ty, V.check l r = .ok (lock, redeem, ty) → ty ≠ .empty) (seg : Bool) : ∀ us : List TxUnlock,
    ((∃ sw, BtcVariants.isSegwit.go V seg us = .ok sw ∧ ¬ (sw = true ∧ (!seg) = true)) ↔
      (seg = true → ¬ FirstBad (fun u => ∃ s, opens u .p2pkh s) (fun u => ∀ kind s, ¬ opens u kind s) us) ∧
      (seg = false → ∀ u ∈ us, ∃ s, opens u .p2pkh s ∨ opens u .multi s))
  | [] => by
    rw [BtcVariants.isSegwit.go]
    refine iff_of_true ⟨false, rfl, by simp⟩ ⟨fun _ => ?_, by simp⟩
    rintro ⟨b, x, a, h, _⟩; simp at h
  | u :: us => by
    have ih := go_cases V opens hV hP hK seg us
    rw [BtcVariants.isSegwit.go, CombinePanic.firstBad_cons, List.forall_mem_cons]
    cases hc : V.check u.lockScript u.redeemScript with
    | panic => exact absurd hc (hP _ _)
    | err =>
      have hno : ∀ ty s, ¬ opens u ty s := by
        intro ty s h
        obtain ⟨lock, h⟩ := (hV u ty s).mpr h
        rw [hc] at h; cases h
      refine iff_of_false (by simp) ?_
      rintro ⟨h1, h2⟩
      cases seg with
      | true => exact h1 rfl (.inl hno)
      | false =>
        obtain ⟨⟨s, h | h⟩, _⟩ := h2 rfl
        · exact hno _ _ h
        · exact hno _ _ h
    | ok x =>
      obtain ⟨lock, script, ty⟩ := x
      have hop : opens u ty script := (hV u ty script).mp ⟨lock, hc⟩
      have huniq : ∀ ty' s', opens u ty' s' → ty' = ty := by
        intro ty' s' h
        obtain ⟨l', h⟩ := (hV u ty' s').mpr h
        rw [hc] at h
        cases h
        rfl
      have h0 := hK _ _ _ _ _ hc
      have hyes : ¬ ∀ kind s, ¬ opens u kind s := fun h => h _ _ hop
      rw [Res.bind_ok]
      dsimp only
      cases seg with
      | true =>
        simp only [true_implies, Bool.true_eq_false, false_implies, and_true, hyes, false_or, Bool.not_true, Bool.false_eq_true, and_false, not_false_eq_true] at ih ⊢
        by_cases hp : ty = .p2pkh
        · subst hp
          rw [if_neg (by decide)]
          have hk : ∃ s, opens u .p2pkh s := ⟨_, hop⟩
          rw [ih]
          simp only [hk, true_and]
        · rw [if_pos (by cases ty <;> simp_all)]
          refine iff_of_true ⟨_, rfl⟩ ?_
          rintro ⟨⟨s, h⟩, _⟩
          exact hp (huniq _ _ h).symm
      | false =>
        simp only [Bool.false_eq_true, false_implies, true_implies, true_and, Bool.not_false, and_true, and_false, or_false] at ih ⊢
        by_cases hp : ty = .p2wpkh ∨ ty = .bech32
        · rw [if_pos hp]
          refine iff_of_false (by simp) ?_
          rintro ⟨⟨s, h | h⟩, _⟩
          · have := huniq _ _ h; rw [← this] at hp; simp at hp
          · have := huniq _ _ h; rw [← this] at hp; simp at hp
        · rw [if_neg hp, ih]
          have : ∃ s, opens u .p2pkh s ∨ opens u .multi s := by
            refine ⟨script, ?_⟩
            cases ty <;> simp_all
          simp only [this, true_and]

/-- Inserting, for any of the packages. -/
theorem insert_panic (V : Variant) (opens : TxUnlock → InType → Bytes → Prop) (hV : Knows V opens) (hP : ∀ l r, V.check l r ≠ .panic)
    (hK : ∀ l r lock redeem ty, V.check l r = .ok (lock, redeem, ty) → ty ≠ .empty) (H : Hashes) (text : Bytes) (hashes : List TxHash) (us : List TxUnlock) (seg : Bool) :
    BtcVariants.insertSignatures V H text hashes us seg = .panic ↔ ∃ b, HexText text b ∧ ((seg = true ∧ CutWitness V.version b) ∨
      ∃ t, decodeTxV V.version (hexSpare b) seg b = .ok t ∧ t.vins.length = us.length ∧ t.vouts ≠ [] ∧ hashes ≠ [] ∧ CrashingRecords opens seg hashes us) := by
  unfold BtcVariants.insertSignatures
  simp only [← Eip.decode_iff]
  cases hd : Hex.decode text with
  | err => simp
  | panic => exact absurd hd (Hex.decode_ne_panic _)
  | ok b =>
    simp only [Res.bind_ok, Res.ok.injEq, exists_eq_left']
    rw [← C23_panic_hex_exact]
    cases ht : decodeTxV V.version (hexSpare b) seg b with
    | err => simp
    | panic => simp
    | ok t =>
      simp only [Res.bind_ok, reduceCtorEq, false_or, Res.ok.injEq, exists_eq_left']
      by_cases c1 : us = [] ∨ hashes = [] ∨ t.vins = [] ∨ t.vouts = [] ∨ t.vins.length ≠ us.length
      · rw [if_pos c1]
        refine iff_of_false (by simp) ?_
        rintro ⟨h1, h2, h3, _, _, k, u, _, _, h4, _⟩
        have hk := (List.getElem?_eq_some_iff.mp h4).1
        rcases c1 with c | c | c | c | c
        · rw [c] at hk; simp at hk
        · exact h3 c
        · rw [c] at h1; simp at h1; omega
        · exact h2 c
        · exact c h1
      rw [if_neg c1]
      push Not at c1
      obtain ⟨n1, n2, n3, n4, n5⟩ := c1
      simp only [n5, n4, n2, ne_eq, not_false_eq_true, true_and]
      have hgo := go_cases V opens hV hP hK seg us
      have hsw : BtcVariants.isSegwit V seg us = BtcVariants.isSegwit.go V seg us := by
        cases us with
        | nil => exact absurd rfl n1
        | cons _ _ => rfl
      rw [hsw]
      unfold CrashingRecords
      rw [← and_assoc, ← hgo]
      cases hg : BtcVariants.isSegwit.go V seg us with
      | panic => exact absurd hg (SignPanic.segwitGo_ne_panic V hP seg us)
      | err => simp
      | ok sw =>
        simp only [Res.ok.injEq, exists_eq_left']
        by_cases c2 : sw = true ∧ (!seg) = true
        · rw [if_pos c2]; simp [c2.1, c2.2]
        rw [if_neg c2]
        have hoff := (hgo.mp ⟨sw, hg, c2⟩).2
        have hloop := loop_panic V opens hV hP hK H seg sw hashes us t.vins 0 n5 hoff
        simp only [Nat.zero_add] at hloop
        simp only [c2, not_false_eq_true, true_and]
        rw [← hloop]
        constructor
        · intro h
          rcases Res.bind_eq_panic.mp h with h | ⟨r, hr, h⟩
          · exact h
          · cases r with
            | none => cases h
            | some ins =>
              dsimp only at h
              rcases Res.bind_eq_panic.mp h with h | ⟨_, _, h⟩
              · exact absurd h (SignPanic.encode_ne_panic _ _)
              · cases h
        · intro h; rw [h]; rfl

theorem knows_btc : Knows hc (Opens false false) := fun u ty s => by
  rw [← opens_iff]; simp only [← check_btc]; rfl
theorem knows_bch {V : Variant} (h : V = bch ∨ V = bsv) : Knows V (Opens false true) := fun u ty s => by
  rw [← opens_iff]; simp only [← check_bch]; rcases h with rfl | rfl <;> rfl
theorem knows_cxc : Knows cxc (Opens true false) := fun u ty s => by
  rw [← opens_iff]; simp only [← check_cxc]; rfl
theorem knows_zen : Knows zen (fun _ kind script => kind = .p2pkh ∧ script = []) := fun u ty s => by
  simp [zen, checkZen, and_comm, eq_comm]

end InsertPanic
open InsertPanic

/-- C141, exactly, for inserting signatures, in all the packages: `InsertSignatureIntoEmptyTransaction` panics if and only if segwit is on and the text is a cut transaction of C23, or the text is
a transaction with outputs and as many inputs as unlock data, and the records crash (`CrashingRecords`: at the first input whose record is missing, has no place for its signature,
or has a signature with a zero half among those that are used, if the inputs before are in order). Horizen takes every output for one of a key hash. -/
theorem C141_insert_exact (H : Hashes) (text : Bytes) (hashes : List TxHash) (us : List TxUnlock) (segwitOn : Bool) :
    (Btc.insertSignatures H text hashes us segwitOn = .panic ↔ ∃ b, HexText text b ∧ ((segwitOn = true ∧ CutWitness 2 b) ∨
      ∃ t, Btc.decodeTx (hexSpare b) segwitOn b = .ok t ∧ t.vins.length = us.length ∧ t.vouts ≠ [] ∧ hashes ≠ [] ∧
        CrashingRecords (Opens false false) segwitOn hashes us)) ∧
    (BtcVariants.insertSignatures hc H text hashes us segwitOn = .panic ↔ ∃ b, HexText text b ∧ ((segwitOn = true ∧ CutWitness 2 b) ∨
      ∃ t, decodeTxV 2 (hexSpare b) segwitOn b = .ok t ∧ t.vins.length = us.length ∧ t.vouts ≠ [] ∧ hashes ≠ [] ∧
        CrashingRecords (Opens false false) segwitOn hashes us)) ∧
    (∀ V, V = bch ∨ V = bsv → (BtcVariants.insertSignatures V H text hashes us segwitOn = .panic ↔ ∃ b, HexText text b ∧ ((segwitOn = true ∧ CutWitness 1 b) ∨
      ∃ t, decodeTxV 1 (hexSpare b) segwitOn b = .ok t ∧ t.vins.length = us.length ∧ t.vouts ≠ [] ∧ hashes ≠ [] ∧
        CrashingRecords (Opens false true) segwitOn hashes us))) ∧
    (BtcVariants.insertSignatures cxc H text hashes us segwitOn = .panic ↔ ∃ b, HexText text b ∧ ((segwitOn = true ∧ CutWitness 1 b) ∨
      ∃ t, decodeTxV 1 (hexSpare b) segwitOn b = .ok t ∧ t.vins.length = us.length ∧ t.vouts ≠ [] ∧ hashes ≠ [] ∧
        CrashingRecords (Opens true false) segwitOn hashes us)) ∧
    (BtcVariants.insertSignatures zen H text hashes us segwitOn = .panic ↔ ∃ b, HexText text b ∧ ((segwitOn = true ∧ CutWitness 1 b) ∨
      ∃ t, decodeTxV 1 (hexSpare b) segwitOn b = .ok t ∧ t.vins.length = us.length ∧ t.vouts ≠ [] ∧ hashes ≠ [] ∧
        CrashingRecords (fun _ kind script => kind = .p2pkh ∧ script = []) segwitOn hashes us)) := by
  have h2 := insert_panic hc _ knows_btc SignPanic.checkBtc_ne_panic (SignPanic.kinds (by simp)) H text hashes us segwitOn
  refine ⟨?_, h2, ?_, ?_, ?_⟩
  · rw [← insert_hc]
    exact h2
  · rintro V (rfl | rfl)
    · exact insert_panic bch _ (knows_bch (.inl rfl)) SignPanic.checkBch_ne_panic (SignPanic.kinds (by simp)) H text hashes us segwitOn
    · exact insert_panic bsv _ (knows_bch (.inr rfl)) SignPanic.checkBch_ne_panic (SignPanic.kinds (by simp)) H text hashes us segwitOn
  · exact insert_panic cxc _ knows_cxc SignPanic.checkCxc_ne_panic (SignPanic.kinds (by simp)) H text hashes us segwitOn
  · exact insert_panic zen _ knows_zen SignPanic.checkZen_ne_panic (SignPanic.kinds (by simp)) H text hashes us segwitOn

theorem opens_keyUnlock : Opens false false keyUnlock .p2pkh [] :=
  ⟨rfl, List.replicate 20 5, [], by simp, .inl rfl, by unfold keyUnlock; rw [Hex.decode_encode, List.append_nil], .inr rfl⟩

theorem fits_fairRecord (segwitOn : Bool) : Fits segwitOn fairRecord [] :=
  .inl ⟨List.replicate 64 1, ⟨rfl, _, rfl, rfl, by simp, _, rfl, by simp⟩, by unfold ZeroHalf; decide +kernel⟩

theorem crashes_zeroRecord (segwitOn : Bool) : Crashes segwitOn zeroRecord [] :=
  .inr (.inl ⟨List.replicate 64 0, ⟨rfl, _, rfl, rfl, by simp, _, rfl, by simp⟩, by unfold ZeroHalf; decide +kernel⟩)

/-- Records that crash at the second of two inputs: a signature of zeros, and a record that is missing. -/
theorem crashing_two (segwitOn : Bool) (hashes : List TxHash) (h : hashes = [fairRecord, zeroRecord] ∨ hashes = [fairRecord]) :
    CrashingRecords (Opens false false) segwitOn hashes [keyUnlock, keyUnlock] := by
  refine ⟨fun _ => ?_, fun _ u hu => ?_, 1, keyUnlock, .p2pkh, [], rfl, opens_keyUnlock, ?_, ?_⟩
  · have hno : ¬ ∀ kind s, ¬ Opens false false keyUnlock kind s := fun h => h _ _ opens_keyUnlock
    rw [CombinePanic.firstBad_cons, CombinePanic.firstBad_cons]
    rintro (h | ⟨_, h | ⟨_, b, x, a, h, _⟩⟩)
    · exact hno h
    · exact hno h
    · simp at h
  · simp only [List.mem_cons, List.not_mem_nil, or_false, or_self] at hu
    subst hu
    exact ⟨[], .inl opens_keyUnlock⟩
  · rintro r hr
    rcases h with rfl | rfl
    · simp only [List.getElem?_cons_succ, List.getElem?_cons_zero, Option.some.injEq] at hr
      subst hr
      exact crashes_zeroRecord _
    · simp at hr
  · intro j hj
    obtain rfl : j = 0 := by omega
    refine ⟨keyUnlock, fairRecord, .p2pkh, [], rfl, ?_, opens_keyUnlock, fits_fairRecord _⟩
    rcases h with rfl | rfl <;> rfl

/-- Both crash, with witnesses on and off, and two records in order do not. -/
example (H : Hashes) (segwitOn : Bool) : Btc.insertSignatures H (Hex.encode twoIns) [fairRecord, zeroRecord] [keyUnlock, keyUnlock] segwitOn = .panic ∧
    Btc.insertSignatures H (Hex.encode twoIns) [fairRecord] [keyUnlock, keyUnlock] segwitOn = .panic := by
  have hd : ∀ segwitOn, ∃ t, Btc.decodeTx (hexSpare twoIns) segwitOn twoIns = .ok t ∧ t.vins.length = 2 ∧ t.vouts ≠ [] := by
    intro segwitOn
    have h : (match Btc.decodeTx (hexSpare twoIns) segwitOn twoIns with
      | .ok t => decide (t.vins.length = 2) && !t.vouts.isEmpty
      | _ => false) = true := by cases segwitOn <;> decide +kernel
    cases ht : Btc.decodeTx (hexSpare twoIns) segwitOn twoIns with
    | err => rw [ht] at h; cases h
    | panic => rw [ht] at h; cases h
    | ok t =>
      rw [ht] at h
      simp only [Bool.and_eq_true, decide_eq_true_eq, Bool.not_eq_true', List.isEmpty_eq_false_iff] at h
      exact ⟨t, rfl, h.1, h.2⟩
  obtain ⟨t, h1, h2, h3⟩ := hd segwitOn
  constructor
  · exact (C141_insert_exact H _ _ _ segwitOn).1.mpr ⟨twoIns, (Eip.decode_iff _ _).mp (Hex.decode_encode _), .inr ⟨t, h1, h2, h3, by simp, crashing_two _ _ (.inl rfl)⟩⟩
  · exact (C141_insert_exact H _ _ _ segwitOn).1.mpr ⟨twoIns, (Eip.decode_iff _ _).mp (Hex.decode_encode _), .inr ⟨t, h1, h2, h3, by simp, crashing_two _ _ (.inr rfl)⟩⟩

end Verif
