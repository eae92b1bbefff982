import Verif.Spec.SignConc
import Verif.Lemmas.SignatureSet

/-! Lemmas for C130. -/

namespace Verif.SignConc
open Verif Verif.SigSet Verif.Spec.SignConc

variable {E : Ec}

/-- The call ends with `r` if nobody else writes the nonce between its own pairs of operations. -/
inductive Settles (E : Ec) (r : Res Bytes) : Call → Prop
  | done : Settles E r (.done r)
  | ok (n key hash : Bytes) (k : Bool → Call) (k' : Option Bytes → Call) : E.preprocess n = true → k true = .sign key hash k' →
      Settles E r (k' (E.sign key hash n)) → Settles E r (.set n k)
  | refused (n : Bytes) (k : Bool → Call) : E.preprocess n = false → Settles E r (k false) → Settles E r (.set n k)

/-- The call has stored its nonce in `cell` and ends with `r`. -/
def Waits (E : Ec) (r : Res Bytes) (cell : Bytes) (c : Call) : Prop :=
  ∃ key hash k', c = .sign key hash k' ∧ Settles E r (k' (E.sign key hash cell))

theorem inner_finish (p h n : Bytes) :
    signatureInner E p h n = if E.preprocess n = false then none else finish E n (E.sign p h n) := by
  unfold signatureInner finish
  split
  · rfl
  · cases E.sign p h n with
    | none => rfl
    | some s => cases E.pub n <;> rfl

theorem attempt_round (p h : Bytes) (c : Nat) :
    attempt E p h c = roundNonce E p h c >>= fun o => match o with
      | none => .ok none
      | some n => .ok (signatureInner E p h n) := by
  unfold attempt roundNonce
  cases nonceFunction E h p c with
  | ok n =>
    simp only [Res.bind_ok]
    cases checkOverflow32 n with
    | ok o =>
      simp only [Res.bind_ok]
      cases checkIsZero n with
      | ok z => simp only [Res.bind_ok]; split <;> rfl
      | err => rfl
      | panic => rfl
    | err => rfl
    | panic => rfl
  | err => rfl
  | panic => rfl

theorem ethLoop_settles (p h : Bytes) : ∀ c, Settles E (signLoop E p h c) (ethLoop E p h c) := by
  intro c
  induction hd : 2 ^ 32 - c using Nat.strong_induction_on generalizing c with
  | _ d ih =>
    rw [signLoop, ethLoop]
    by_cases hc : 2 ^ 32 ≤ (c + 1) * 32
    · rw [dif_pos hc, dif_pos hc]; exact .done
    · rw [dif_neg hc, dif_neg hc, attempt_round]
      have next := ih (2 ^ 32 - (c + 1)) (by omega) (c + 1) rfl
      cases roundNonce E p h c with
      | panic => exact .done
      | err => exact .done
      | ok o =>
        cases o with
        | none => exact next
        | some n =>
          simp only [Res.bind_ok]
          rw [inner_finish]
          cases hp : E.preprocess n with
          | false => exact .refused n _ hp next
          | true =>
            refine .ok n p h _ _ hp rfl ?_
            rw [if_neg (by simp)]
            cases finish E n (E.sign p h n) with
            | none => exact next
            | some r => exact .done

theorem ethCall_settles (p h : Bytes) : Settles E (ethSignature E p h) (ethCall E p h) := by
  unfold ethSignature ethCall
  split
  · exact .done
  · have e1 : checkOverflow64 p = .panic ∨ ∃ b, checkOverflow64 p = .ok b := by
      unfold checkOverflow64; split
      · exact .inl rfl
      · exact .inr ⟨_, rfl⟩
    have e2 : checkIsZero p = .panic ∨ ∃ b, checkIsZero p = .ok b := by
      unfold checkIsZero; split
      · exact .inl rfl
      · exact .inr ⟨_, rfl⟩
    rcases e1 with e1 | ⟨b, e1⟩ <;> rcases e2 with e2 | ⟨b', e2⟩ <;> rw [e1, e2]
    · exact .done
    · exact .done
    · exact .done
    · simp only [Res.bind_ok]
      split
      · exact ethLoop_settles p h 0
      · exact .done

theorem eosLoop_settles (sha : Bytes → Bytes) (p h : Bytes) :
    ∀ f i, Settles E (signCanonicalLoop E sha p h f i) (eosLoop E sha p h f i) := by
  intro f
  induction f with
  | zero => intro i; exact .done
  | succ f ih =>
    intro i
    unfold signCanonicalLoop eosLoop signRFC6979
    cases generateRandom E sha p h i with
    | none => exact .done
    | some n =>
      dsimp only
      cases hp : E.preprocess n with
      | false => exact .refused n _ hp .done
      | true =>
        refine .ok n p h _ _ hp rfl ?_
        rw [if_neg (by simp)]
        cases E.sign p h n with
        | none => exact .done
        | some sig =>
          dsimp only
          cases E.pub p with
          | none => exact .done
          | some pk =>
            dsimp only
            cases canonicalRound E sig pk h with
            | panic => exact .done
            | err => exact .done
            | ok o =>
              cases o with
              | none => exact ih (i + 1)
              | some c => exact .done

theorem call_settles (sha : Bytes → Bytes) (q : Request) : Settles E (alone E sha q) (call E sha q) := by
  cases q with
  | eth p h => exact ethCall_settles p h
  | eos p h => exact eosLoop_settles sha p h 25 0

/-- One step of a settling call. -/
theorem next_set {r : Res Bytes} {n : Bytes} {k : Bool → Call} (cell : Bytes) (h : Settles E r (.set n k)) :
    Settles E r (next E cell (.set n k)).2 ∨ Waits E r (next E cell (.set n k)).1 (next E cell (.set n k)).2 := by
  cases h with
  | ok _ key hash _ k' hp hk hs =>
    right
    simp only [next, hp, if_true]
    exact ⟨key, hash, k', hk, hs⟩
  | refused _ _ hp hs =>
    left
    simp only [next, hp]
    exact hs

theorem step_length (w : World) (i : Nat) : (step E w i).calls.length = w.calls.length := by
  unfold step; split <;> simp

theorem step_get (w : World) (i j : Nat) : (step E w i).calls[j]? =
    if j = i then (w.calls[i]?).map fun c => (next E w.cell c).2 else w.calls[j]? := by
  unfold step
  cases hc : w.calls[i]? with
  | none =>
    by_cases e : j = i
    · subst e; simp [hc]
    · simp [e]
  | some c =>
    have hl : i < w.calls.length := (List.getElem?_eq_some_iff.mp hc).1
    simp only [Option.map_some]
    split
    · subst j; simp [hl]
    · rw [List.getElem?_set_ne (by omega)]

theorem run_inv (rs : List (Res Bytes)) : ∀ (sched : List Nat) (w : World), w.calls.length = rs.length →
    (∀ (i : Nat) (c : Call) (r : Res Bytes), w.calls[i]? = some c → rs[i]? = some r → Settles E r c ∨ Waits E r w.cell c) → Exclusive E w sched →
    (run E w sched).calls.length = rs.length ∧
      ∀ (i : Nat) (c : Call) (r : Res Bytes), (run E w sched).calls[i]? = some c → rs[i]? = some r → Settles E r c ∨ Waits E r (run E w sched).cell c := by
  intro sched
  induction sched with
  | nil => intro w hl hw _; exact ⟨hl, hw⟩
  | cons i rest ih =>
    intro w hl hw hx
    obtain ⟨hx, hrest⟩ := hx
    refine ih (step E w i) (by rw [step_length]; exact hl) ?_ hrest
    intro j c r hj hr
    rw [step_get] at hj
    cases hc : w.calls[i]? with
    | none =>
      have e : step E w i = w := by unfold step; rw [hc]
      rw [e]
      split at hj
      · rw [hc] at hj; cases hj
      · exact hw j c r hj hr
    | some c0 =>
      have ecell : (step E w i).cell = (next E w.cell c0).1 := by unfold step; rw [hc]
      rw [ecell]
      split at hj
      · rename_i e; subst e
        rw [hc] at hj
        obtain rfl := Option.some.inj hj
        rcases hw j c0 r hc hr with h | ⟨key, hash, k', rfl, h⟩
        · cases c0 with
          | done r0 => left; exact h
          | set n k => exact next_set _ h
          | sign key hash k => cases h
        · left; exact h
      · rename_i hne
        rcases hw j c r hj hr with h | ⟨key, hash, k', rfl, h⟩
        · exact .inl h
        · right
          cases c0 with
          | done r0 => exact ⟨key, hash, k', rfl, h⟩
          | sign a b k => exact ⟨key, hash, k', rfl, h⟩
          | set n k =>
            exact absurd ⟨key, hash, k', rfl⟩ (hx ⟨n, k, hc⟩ j _ hne hj)

theorem settles_done {r r' : Res Bytes} (cell : Bytes) (h : Settles E r (.done r') ∨ Waits E r cell (.done r')) : r' = r := by
  rcases h with h | ⟨_, _, _, h, _⟩
  · cases h; rfl
  · cases h

/-- A settling call that runs alone ends. -/
theorem alone_ends {r : Res Bytes} {c : Call} (h : Settles E r c) : ∀ cell, ∃ n cell',
    run E ⟨cell, [c]⟩ (List.replicate n 0) = ⟨cell', [.done r]⟩ := by
  induction h with
  | done => intro cell; exact ⟨0, cell, rfl⟩
  | ok n key hash k k' hp hk _ ih =>
    intro cell
    obtain ⟨m, cell', e⟩ := ih n
    refine ⟨m + 2, cell', ?_⟩
    rw [← e]
    simp [run, List.replicate_succ, step, next, hp, hk]
  | refused n k hp _ ih =>
    intro cell
    obtain ⟨m, cell', e⟩ := ih cell
    refine ⟨m + 1, cell', ?_⟩
    rw [← e]
    simp [run, List.replicate_succ, step, next, hp]

/-! ### Serial schedules -/

theorem run_append (w : World) (a b : List Nat) : run E w (a ++ b) = run E (run E w a) b := by simp [run]

theorem exclusive_append : ∀ (a b : List Nat) (w : World), Exclusive E w (a ++ b) ↔ Exclusive E w a ∧ Exclusive E (run E w a) b
  | [], b, w => by simp [Exclusive, run]
  | i :: a, b, w => by
    simp only [List.cons_append, Exclusive]
    rw [exclusive_append a b (step E w i), and_assoc]
    rfl

/-- Call `i` runs to its end while nobody else is pending. -/
theorem one_ends {r : Res Bytes} {c : Call} (i : Nat) (h : Settles E r c) : ∀ w : World, w.calls[i]? = some c →
    (∀ (j : Nat) (c' : Call), j ≠ i → w.calls[j]? = some c' → ¬ Pending c') →
    ∃ n, Exclusive E w (List.replicate n i) ∧ (run E w (List.replicate n i)).calls = w.calls.set i (.done r) := by
  induction h with
  | done =>
    intro w hw _
    refine ⟨0, trivial, ?_⟩
    change w.calls = _
    obtain ⟨hl, e⟩ := List.getElem?_eq_some_iff.mp hw
    rw [← e, List.set_getElem_self]
  | ok n key hash k k' hp hk _ ih =>
    intro w hw hf
    have e1 : step E w i = ⟨n, w.calls.set i (.sign key hash k')⟩ := by simp [step, hw, next, hp, hk]
    have hl : i < w.calls.length := (List.getElem?_eq_some_iff.mp hw).1
    have e2 : step E (step E w i) i = ⟨n, w.calls.set i (k' (E.sign key hash n))⟩ := by
      rw [e1]; simp [step, hl, next]
    obtain ⟨m, x, e⟩ := ih (step E (step E w i) i) (by rw [e2]; simp [hl]) (by
      intro j c' hj hc
      rw [e2] at hc
      rw [List.getElem?_set_ne (by omega)] at hc
      exact hf j c' hj hc)
    refine ⟨m + 2, ⟨fun _ => hf, ?_, x⟩, ?_⟩
    · rintro ⟨a, b, hab⟩
      rw [e1] at hab
      simp [hl] at hab
    · change (run E (step E (step E w i) i) (List.replicate m i)).calls = _
      rw [e, e2]; simp
  | refused n k hp _ ih =>
    intro w hw hf
    have hl : i < w.calls.length := (List.getElem?_eq_some_iff.mp hw).1
    have e1 : step E w i = ⟨w.cell, w.calls.set i (k false)⟩ := by simp [step, hw, next, hp]
    obtain ⟨m, x, e⟩ := ih (step E w i) (by rw [e1]; simp [hl]) (by
      intro j c' hj hc
      rw [e1] at hc
      rw [List.getElem?_set_ne (by omega)] at hc
      exact hf j c' hj hc)
    refine ⟨m + 1, ⟨fun _ => hf, x⟩, ?_⟩
    change (run E (step E w i) (List.replicate m i)).calls = _
    rw [e, e1]; simp

theorem settles_not_pending {r : Res Bytes} {c : Call} (h : Settles E r c) : ¬ Pending c := by
  rintro ⟨_, _, _, rfl⟩; cases h

/-- One after the other. -/
theorem serial_ends (sha : Bytes → Bytes) (qs : List Request) : ∀ (pre : List (Res Bytes)) (cell : Bytes), ∃ sched,
    Exclusive E ⟨cell, pre.map .done ++ qs.map (call E sha)⟩ sched ∧
      (run E ⟨cell, pre.map .done ++ qs.map (call E sha)⟩ sched).calls = pre.map .done ++ qs.map fun q => .done (alone E sha q) := by
  induction qs with
  | nil => intro pre cell; exact ⟨[], trivial, rfl⟩
  | cons q qs ih =>
    intro pre cell
    have hall : ∀ (j : Nat) (c' : Call), (pre.map Call.done ++ (q :: qs).map (call E sha))[j]? = some c' → ¬ Pending c' := by
      intro j c' hc
      have := List.mem_of_getElem? hc
      rw [List.mem_append, List.mem_map, List.mem_map] at this
      rcases this with ⟨r, _, rfl⟩ | ⟨q', _, rfl⟩
      · rintro ⟨_, _, _, h⟩; cases h
      · exact settles_not_pending (call_settles sha q')
    obtain ⟨n, x, e⟩ := one_ends (E := E) pre.length (call_settles sha q) ⟨cell, pre.map .done ++ (q :: qs).map (call E sha)⟩
      (by simp) (fun j c' _ hc => hall j c' hc)
    obtain ⟨sched, x', e'⟩ := ih (pre ++ [alone E sha q])
      (run E ⟨cell, pre.map .done ++ (q :: qs).map (call E sha)⟩ (List.replicate n pre.length)).cell
    have ew : run E ⟨cell, pre.map .done ++ (q :: qs).map (call E sha)⟩ (List.replicate n pre.length) =
        ⟨(run E ⟨cell, pre.map .done ++ (q :: qs).map (call E sha)⟩ (List.replicate n pre.length)).cell,
          (pre ++ [alone E sha q]).map .done ++ qs.map (call E sha)⟩ := by
      generalize run E ⟨cell, pre.map .done ++ (q :: qs).map (call E sha)⟩ (List.replicate n pre.length) = W at e
      cases W with
      | mk a b =>
        simp only at e
        subst e
        simp
    refine ⟨List.replicate n pre.length ++ sched, ?_, ?_⟩
    · rw [exclusive_append]
      refine ⟨x, ?_⟩
      rw [ew]; exact x'
    · rw [run_append, ew, e']; simp

/-! ### The published signature -/

theorem finish_some (n y raw : Bytes) (hy : E.pub n = some y) :
    finish E n (some raw) = some (if beNat (raw.drop 32) > Btc.curveOrder / 2 then
      raw.take 32 ++ copyInto (raw.drop 32) (OwKeychain.padLoop 32 0
          (OwKeychain.bigBytes ((Btc.curveOrder : Int) - beNat (raw.drop 32)).natAbs)) ++ [UInt8.ofNat (1 - (y.getD 63 0).toNat % 2)]
      else raw ++ [UInt8.ofNat ((y.getD 63 0).toNat % 2)]) := by
  have hp : ∀ x : UInt8, (if x % 2 = 1 then (1 : UInt8) else 0) = UInt8.ofNat (x.toNat % 2) := by
    apply Hex.u8_forall; decide +kernel
  have hp2 : ∀ x : UInt8, (if x % 2 = 1 then (1 : UInt8) else 0) ^^^ 1 = UInt8.ofNat (1 - x.toNat % 2) := by
    apply Hex.u8_forall; decide +kernel
  unfold finish
  simp only [hy, hp2]
  simp only [hp]
  split <;> rfl

theorem lowS_bytes (R : Bytes) (l4 : R.length = 32) (hlt : beNat R < Btc.curveOrder) (h240 : 2 ^ 240 ≤ Btc.curveOrder - beNat R) :
    copyInto R (OwKeychain.padLoop 32 0 (OwKeychain.bigBytes ((Btc.curveOrder : Int) - beNat R).natAbs)) =
      beBytes 32 (Btc.curveOrder - beNat R) := by
  generalize hv : beNat R = v at *
  have e1 : ((Btc.curveOrder : Int) - v).natAbs = Btc.curveOrder - v := by omega
  rw [e1]
  have hup : Btc.curveOrder - v < 256 ^ 32 := by
    have : Btc.curveOrder < 256 ^ 32 := by decide
    exact lt_of_le_of_lt (Nat.sub_le _ _) this
  have l1 := (OwKeychain.bigBytes_length_le (Btc.curveOrder - v) 32).mpr hup
  have l2 : ¬ (OwKeychain.bigBytes (Btc.curveOrder - v)).length ≤ 30 := by
    rw [OwKeychain.bigBytes_length_le, show (256 : Nat) ^ 30 = 2 ^ 240 by norm_num]
    exact not_lt.mpr h240
  have l3 : (OwKeychain.padLoop 32 0 (OwKeychain.bigBytes (Btc.curveOrder - v))).length = 32 := by
    rw [OwKeychain.pad_length _ l1]; omega
  unfold copyInto
  rw [l3, l4, List.take_of_length_le l3.le, List.drop_of_length_le l4.le, List.append_nil]
  apply beNat_inj
  · rw [l3, beBytes_length]
  · rw [OwKeychain.beNat_padLoop, OwKeychain.beNat_bigBytes, beNat_beBytes_of_lt hup]

/-- s is published up to its sign. -/
theorem finish_s (n y raw out : Bytes) (hy : E.pub n = some y) (hl : raw.length = 64) (h : finish E n (some raw) = some out)
    (hlt : beNat (raw.drop 32) < Spec.Rfc6979.q)
    (h240 : beNat (raw.drop 32) ≤ Spec.Rfc6979.q / 2 ∨ 2 ^ 240 ≤ Spec.Rfc6979.q - beNat (raw.drop 32)) :
    out.take 32 = raw.take 32 ∧ ((beNat (raw.drop 32) : ZMod Spec.Rfc6979.q) = sOf out ∨ (beNat (raw.drop 32) : ZMod Spec.Rfc6979.q) = - sOf out) := by
  rw [finish_some n y raw hy] at h
  obtain rfl := Option.some.inj h
  have l4 : (raw.drop 32).length = 32 := by simp; omega
  unfold sOf
  split
  · rename_i hgt
    rcases h240 with h240 | h240
    · rw [q_eq] at h240; omega
    · have hlow := lowS_bytes (raw.drop 32) l4 (by rw [← q_eq]; exact hlt) (by rw [← q_eq]; exact h240)
      rw [hlow, List.append_assoc]
      refine ⟨List.take_left' (by simp; omega), .inr ?_⟩
      rw [List.drop_left' (by simp; omega), List.take_left' (by simp), ← q_eq, beNat_beBytes_of_lt (by
        have : Spec.Rfc6979.q < 256 ^ 32 := by decide +kernel
        exact lt_of_le_of_lt (Nat.sub_le _ _) this), Nat.cast_sub hlt.le, ZMod.natCast_self]
      ring
  · refine ⟨by rw [List.take_append_of_le_length (by omega)], .inl ?_⟩
    rw [List.drop_append_of_le_length (by omega), List.take_left' l4]

/-- The first round of a recoverable signature. -/
theorem ethCall_first {key hash : Bytes} (hk : key.length = 32) (hh : hash.length = 32) (hkey : Spec.Rfc6979.InRange (beNat key))
    (hb : Spec.Rfc6979.InRange (beNat (Spec.Rfc6979.candidate E.hmac (key ++ hash) 0))) :
    ethCall E key hash = .set (Spec.Rfc6979.candidate E.hmac (key ++ hash) 0) fun ok =>
        if ok then .sign key hash fun sig =>
          match finish E (Spec.Rfc6979.candidate E.hmac (key ++ hash) 0) sig with
          | some r => .done (.ok r)
          | none => ethLoop E key hash 1
        else ethLoop E key hash 1 := by
  unfold Spec.Rfc6979.InRange at hkey hb
  rw [q_eq] at hkey hb
  have hr : roundNonce E key hash 0 = .ok (some (Spec.Rfc6979.candidate E.hmac (key ++ hash) 0)) := by
    unfold roundNonce
    have hl := candidate_length E (key ++ hash) 0
    rw [nonceFunction_eq E hk hh, if_neg (by omega), Res.bind_ok]
    simp only [Nat.zero_add, List.replicate_one, List.flatten_cons, List.flatten_nil, List.append_nil]
    rw [checkOverflow32_eq _ (by omega), Res.bind_ok, checkIsZero_eq _ (by omega), Res.bind_ok, List.take_of_length_le (by omega), if_pos]
    simp only [decide_eq_false_iff_not, not_le]
    exact ⟨hb.2, by omega⟩
  unfold ethCall
  rw [if_neg (by omega), checkOverflow64_eq _ (by omega), checkIsZero_eq _ (by omega), List.take_of_length_le (by omega)]
  simp only [decide_eq_false_iff_not, not_le]
  rw [if_pos ⟨hkey.2, by omega⟩, ethLoop, dif_neg (by omega), hr]
  simp only [Nat.zero_add]
  congr 1

end Verif.SignConc
