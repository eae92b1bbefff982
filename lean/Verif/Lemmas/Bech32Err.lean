import Verif.Lemmas.CashAddr
import Verif.Lemmas.Bech32m

/-! Texts that differ in one character. -/

namespace Verif.Bech32
open Verif Verif.PolyMod

def isLow (c : UInt8) : Bool := 0x61 ≤ c ∧ c ≤ 0x7a
def isUp (c : UInt8) : Bool := 0x41 ≤ c ∧ c ≤ 0x5a

theorem scan_append (sep : UInt8) : ∀ (a b : Bytes) (i : Nat) (s : Scan),
    scan sep i s (a ++ b) = (scan sep i s a).bind (fun s' => scan sep (i + a.length) s' b)
  | [], b, i, s => by simp [scan]
  | c :: cs, b, i, s => by
    have ih := scan_append sep cs b (i + 1)
    have e : i + 1 + cs.length = i + (c :: cs).length := by simp; omega
    rw [e] at ih
    simp only [List.cons_append, scan]
    split_ifs <;> first | exact ih _ | rfl

theorem scan_flags (sep : UInt8) (hs : sep = 0x31 ∨ sep = 0x3a) : ∀ (cs : Bytes) (i : Nat) (s s' : Scan),
    scan sep i s cs = some s' →
    s'.lower = (s.lower || cs.any isLow) ∧ s'.upper = (s.upper || cs.any isUp)
  | [], i, s, s', h => by simp [scan] at h; subst h; simp
  | c :: cs, i, s, s', h => by
    simp only [scan] at h
    have hlu : ¬ (isLow c = true ∧ isUp c = true) := by
      unfold isLow isUp
      simp only [decide_eq_true_eq, UInt8.le_iff_toNat_le]
      rintro ⟨⟨h1, h2⟩, h3, h4⟩
      have : (0x61 : UInt8).toNat = 0x61 := rfl
      have : (0x5a : UInt8).toNat = 0x5a := rfl
      omega
    split_ifs at h with h1 h2 h3 h4 h5
    · obtain ⟨e1, e2⟩ := scan_flags sep hs cs _ _ _ h
      have hl : isLow c = true := by simp [isLow, h1]
      have hu : isUp c = false := by
        cases hq : isUp c with
        | false => rfl
        | true => exact absurd ⟨hl, hq⟩ hlu
      simp [e1, e2, hl, hu]
    · obtain ⟨e1, e2⟩ := scan_flags sep hs cs _ _ _ h
      have hu : isUp c = true := by simp [isUp, h2]
      have hl : isLow c = false := by simp only [isLow, h1, decide_false]
      simp [e1, e2, hl, hu]
    all_goals
      obtain ⟨e1, e2⟩ := scan_flags sep hs cs _ _ _ h
      have hu : isUp c = false := by simp only [isUp, h2, decide_false]
      have hl : isLow c = false := by simp only [isLow, h1, decide_false]
      simp [e1, e2, hl, hu]

theorem scan_hasNumber_mono (sep : UInt8) : ∀ (cs : Bytes) (i : Nat) (s s' : Scan),
    scan sep i s cs = some s' → s.hasNumber = true → s'.hasNumber = true
  | [], i, s, s', h, hn => by simp [scan] at h; subst h; exact hn
  | c :: cs, i, s, s', h, hn => by
    simp only [scan] at h
    split_ifs at h with h1 h2 h3 h4 h5
    · exact scan_hasNumber_mono sep cs _ _ _ h (by simpa using hn)
    · exact scan_hasNumber_mono sep cs _ _ _ h (by simpa using hn)
    · exact scan_hasNumber_mono sep cs _ _ _ h (by simp)
    · exact scan_hasNumber_mono sep cs _ _ _ h (by simpa using hn)

theorem scan_prefixSize (sep : UInt8) : ∀ (cs : Bytes) (i : Nat) (s s' : Scan),
    scan sep i s cs = some s' → sep ∉ cs → s'.prefixSize = s.prefixSize
  | [], i, s, s', h, _ => by simp [scan] at h; subst h; rfl
  | c :: cs, i, s, s', h, hn => by
    simp only [List.mem_cons, not_or] at hn
    simp only [scan] at h
    split_ifs at h with h1 h2 h3 h4 h5
    · exact (scan_prefixSize sep cs _ _ _ h hn.2).trans rfl
    · exact (scan_prefixSize sep cs _ _ _ h hn.2).trans rfl
    · exact (scan_prefixSize sep cs _ _ _ h hn.2).trans rfl
    · exact absurd h4.symm hn.1

/-- What a successful scan of `hrp sep rest` says: the prefix consists of letters and `rest` has no separator. -/
theorem scan_split (sep : UInt8) (hs : sep = 0x31 ∨ sep = 0x3a) (hrp rest : Bytes) (hn : sep ∉ hrp) (s' : Scan)
    (h : scan sep 0 ⟨false, false, false, 0⟩ (hrp ++ sep :: rest) = some s') :
    hrp ≠ [] ∧ (∀ c ∈ hrp.head?, isLow c = true ∨ isUp c = true) ∧ s'.prefixSize = hrp.length ∧ sep ∉ rest := by
  rw [scan_append] at h
  cases hsc : scan sep 0 ⟨false, false, false, 0⟩ hrp with
  | none => rw [hsc] at h; cases h
  | some s1 =>
    rw [hsc] at h
    simp only [Option.bind_some, Nat.zero_add] at h
    have hsep1 : ¬ (0x61 ≤ sep ∧ sep ≤ 0x7a) := by rcases hs with rfl | rfl <;> decide
    have hsep2 : ¬ (0x41 ≤ sep ∧ sep ≤ 0x5a) := by rcases hs with rfl | rfl <;> decide
    have hp1 := scan_prefixSize sep hrp _ _ _ hsc hn
    simp only [scan, if_neg hsep1, if_neg hsep2] at h
    rw [if_neg (by simp), if_pos trivial] at h
    split_ifs at h with hc
    simp only [not_or] at hc
    obtain ⟨hc1, hc2, hc3⟩ := hc
    have hne : hrp ≠ [] := by rintro rfl; exact hc2 rfl
    have hrest : ∀ (cs : Bytes) (i : Nat) (s s' : Scan), s.prefixSize ≠ 0 → scan sep i s cs = some s' → sep ∉ cs := by
      intro cs
      induction cs with
      | nil => simp
      | cons c cs ih =>
        intro i s s' hp h
        simp only [scan] at h
        split_ifs at h with h1 h2 h3 h4 h5
        · simp only [List.mem_cons, not_or]
          exact ⟨by rintro rfl; exact hsep1 h1, ih _ _ _ (by simpa using hp) h⟩
        · simp only [List.mem_cons, not_or]
          exact ⟨by rintro rfl; exact hsep2 h2, ih _ _ _ (by simpa using hp) h⟩
        · simp only [List.mem_cons, not_or]
          exact ⟨fun e => h3.2 e.symm, ih _ _ _ (by simpa using hp) h⟩
        · simp only [not_or] at h5
          exact absurd hp (by simpa using h5.2.2)
    have hl : hrp.length ≠ 0 := by simpa using hne
    have hr := hrest rest _ _ _ (by simpa using hl) h
    refine ⟨hne, ?_, ?_, hr⟩
    · intro c hcm
      obtain ⟨d, ds, rfl⟩ : ∃ d ds, hrp = d :: ds := by
        cases hrp with
        | nil => exact absurd rfl hne
        | cons d ds => exact ⟨d, ds, rfl⟩
      simp only [List.head?_cons, Option.mem_def, Option.some.injEq] at hcm
      subst hcm
      simp only [scan] at hsc
      split_ifs at hsc with h1 h2 h3 h4 h5
      · left; simp [isLow, h1]
      · right; simp [isUp, h2]
      · exact absurd (scan_hasNumber_mono sep ds _ _ _ hsc (by simp)) hc1
      · exact absurd trivial (not_or.mp (not_or.mp h5).2).1
    · exact scan_prefixSize sep rest _ _ _ h hr

theorem rev_spec (c : UInt8) : ∀ v ∈ rev c, v < 32 ∧
    (∀ d ∈ stdAlphabet[v]?, c = d ∨ (isLow d = true ∧ isUp c = true ∧ c + 0x20 = d)) ∧ stdAlphabet[v]? ≠ none := by
  revert c; apply Hex.u8_forall; decide +kernel

theorem rev_same {c c' : UInt8} {v : Nat} (h : rev c = some v) (h' : rev c' = some v) (hne : c ≠ c') :
    (isLow c = true ∧ isUp c' = true) ∨ (isLow c' = true ∧ isUp c = true) := by
  obtain ⟨_, h2, h3⟩ := rev_spec c v (by simp [h])
  obtain ⟨_, h2', _⟩ := rev_spec c' v (by simp [h'])
  cases hd : stdAlphabet[v]? with
  | none => exact absurd hd h3
  | some d =>
    rcases h2 d (by simp [hd]) with e | ⟨a1, a2, a3⟩ <;> rcases h2' d (by simp [hd]) with e' | ⟨b1, b2, b3⟩
    · exact absurd (e.trans e'.symm) hne
    · left; rw [e]; exact ⟨b1, b2⟩
    · right; rw [e']; exact ⟨a1, a2⟩
    · refine absurd ?_ hne
      have h5 : ∀ x : UInt8, x + 0x20 - 0x20 = x := by intro x; simp
      rw [← h5 c, a3, ← b3, h5]

theorem revAll_append : ∀ (a b : Bytes) (vs : List Nat), revAll (a ++ b) = some vs →
    ∃ va vb, revAll a = some va ∧ revAll b = some vb ∧ vs = va ++ vb
  | [], b, vs, h => ⟨[], vs, rfl, h, rfl⟩
  | c :: cs, b, vs, h => by
    simp only [List.cons_append, revAll] at h
    cases hc : rev c with
    | none => simp [hc] at h
    | some v =>
      cases hr : revAll (cs ++ b) with
      | none => simp [hc, hr] at h
      | some ws =>
        simp only [hc, hr, Option.some.injEq] at h
        obtain ⟨va, vb, e1, e2, e3⟩ := revAll_append cs b ws hr
        exact ⟨v :: va, vb, by simp [revAll, hc, e1], e2, by rw [← h, e3]; rfl⟩

theorem revAll_lt : ∀ (a : Bytes) (vs : List Nat), revAll a = some vs → ∀ v ∈ vs, v < 32
  | [], vs, h => by simp [revAll] at h; subst h; simp
  | c :: cs, vs, h => by
    simp only [revAll] at h
    cases hc : rev c with
    | none => simp [hc] at h
    | some v =>
      cases hr : revAll cs with
      | none => simp [hc, hr] at h
      | some ws =>
        simp only [hc, hr, Option.some.injEq] at h
        subst h
        intro w hw
        rcases List.mem_cons.mp hw with rfl | hw
        · exact (rev_spec c w (by simp [hc])).1
        · exact revAll_lt cs ws hr w hw

/-- What a successful parse says about a text with a separator. -/
theorem parse_split (sep : UInt8) (hs : sep = 0x31 ∨ sep = 0x3a) (hrp rest : Bytes) (hn : sep ∉ hrp)
    (p : Bytes) (vs : List Nat) (h : parse sep (hrp ++ sep :: rest) = .ok (p, vs)) :
    p = hrp ∧ revAll rest = some vs ∧ hrp ≠ [] ∧
      ((∀ c ∈ hrp.head?, isLow c = true) ∧ rest.any isUp = false ∨
       (∀ c ∈ hrp.head?, isUp c = true) ∧ rest.any isLow = false) := by
  unfold parse at h
  cases hsc : scan sep 0 ⟨false, false, false, 0⟩ (hrp ++ sep :: rest) with
  | none => rw [hsc] at h; cases h
  | some s =>
    rw [hsc] at h
    simp only at h
    obtain ⟨h1, h2, h3, h4⟩ := scan_split sep hs hrp rest hn s hsc
    obtain ⟨f1, f2⟩ := scan_flags sep hs _ _ _ _ hsc
    split_ifs at h with hc hl
    cases hr : revAll ((hrp ++ sep :: rest).drop (s.prefixSize + 1)) with
    | none => rw [hr] at h; cases h
    | some ws =>
      rw [hr] at h
      simp only [Res.ok.injEq, Prod.mk.injEq] at h
      have htw : (hrp ++ sep :: rest).takeWhile (· ≠ sep) = hrp := by
        rw [List.takeWhile_append_of_pos]
        · simp
        · intro c hcc; simp only [ne_eq, decide_not, Bool.not_eq_eq_eq_not, Bool.not_true, decide_eq_false_iff_not]
          rintro rfl; exact hn hcc
      have hdr : (hrp ++ sep :: rest).drop (s.prefixSize + 1) = rest := by
        rw [h3, show hrp ++ sep :: rest = (hrp ++ [sep]) ++ rest by simp]
        exact List.drop_left' (by simp)
      refine ⟨by rw [← h.1, htw], by rw [← hdr, hr, h.2], h1, ?_⟩
      obtain ⟨d, ds, rfl⟩ : ∃ d ds, hrp = d :: ds := by
        cases hrp with
        | nil => exact absurd rfl h1
        | cons d ds => exact ⟨d, ds, rfl⟩
      simp only [List.head?_cons, Option.mem_def, Option.some.injEq, forall_eq'] at h2 ⊢
      simp only [Bool.false_or, List.cons_append, List.any_cons, List.any_append] at f1 f2
      rw [f1, f2] at hc
      rcases h2 with h2 | h2
      · left; refine ⟨h2, ?_⟩
        cases hq : rest.any isUp with
        | false => rfl
        | true => exact absurd (by simp [h2, hq]) hc
      · right; refine ⟨h2, ?_⟩
        cases hq : rest.any isLow with
        | false => rfl
        | true => exact absurd (by simp [h2, hq]) hc

/-- Two parsable texts that differ in exactly one character of the data part have symbol lists that differ in exactly
one symbol. -/
theorem parse_single (sep : UInt8) (hs : sep = 0x31 ∨ sep = 0x3a) (hrp a b : Bytes) (c c' : UInt8) (hn : sep ∉ hrp)
    (hne : c ≠ c') (p p' : Bytes) (vs vs' : List Nat)
    (h : parse sep (hrp ++ sep :: (a ++ c :: b)) = .ok (p, vs))
    (h' : parse sep (hrp ++ sep :: (a ++ c' :: b)) = .ok (p', vs')) :
    p = hrp ∧ p' = hrp ∧ ∃ va v v' vb, vs = va ++ v :: vb ∧ vs' = va ++ v' :: vb ∧ v ≠ v' ∧ v < 32 ∧ v' < 32 := by
  obtain ⟨h1, h2, h3, h4⟩ := parse_split sep hs hrp _ hn p vs h
  obtain ⟨h1', h2', _, h4'⟩ := parse_split sep hs hrp _ hn p' vs' h'
  refine ⟨h1, h1', ?_⟩
  obtain ⟨va, w, e1, e2, e3⟩ := revAll_append _ _ _ h2
  obtain ⟨va', w', e1', e2', e3'⟩ := revAll_append _ _ _ h2'
  rw [e1] at e1'; cases e1'
  simp only [revAll] at e2 e2'
  cases hc : rev c with
  | none => simp [hc] at e2
  | some v =>
    cases hc' : rev c' with
    | none => simp [hc'] at e2'
    | some v' =>
      cases hr : revAll b with
      | none => simp [hc, hr] at e2
      | some vb =>
        simp only [hc, hc', hr, Option.some.injEq] at e2 e2'
        refine ⟨va, v, v', vb, by rw [e3, ← e2], by rw [e3', ← e2'], ?_, (rev_spec c v (by simp [hc])).1,
          (rev_spec c' v' (by simp [hc'])).1⟩
        rintro rfl
        obtain ⟨d, ds, rfl⟩ : ∃ d ds, hrp = d :: ds := by
          cases hrp with
          | nil => exact absurd rfl h3
          | cons d ds => exact ⟨d, ds, rfl⟩
        simp only [List.head?_cons, Option.mem_def, Option.some.injEq, forall_eq', List.any_append, List.any_cons,
          Bool.or_eq_false_iff] at h4 h4'
        have hlu : ∀ x, isLow x = true → isUp x = true → False := by
          intro x; revert x; apply Hex.u8_forall; decide +kernel
        rcases rev_same hc hc' hne with ⟨k1, k2⟩ | ⟨k1, k2⟩
        · rcases h4 with ⟨m1, m2⟩ | ⟨m1, m2⟩
          · rcases h4' with ⟨n1, n2⟩ | ⟨n1, n2⟩
            · rw [n2.2.1] at k2; cases k2
            · exact hlu d m1 n1
          · rw [m2.2.1] at k1; cases k1
        · rcases h4 with ⟨m1, m2⟩ | ⟨m1, m2⟩
          · rw [m2.2.1] at k2; cases k2
          · rcases h4' with ⟨n1, n2⟩ | ⟨n1, n2⟩
            · exact hlu d n1 m1
            · rw [n2.2.1] at k1; cases k1

/-- An accepted bech32 text is parsable and its checksum verifies. -/
theorem decode_ok {t b : Bytes} (h : decode t = .ok b) :
    ∃ p vs, parse 0x31 t = .ok (p, vs) ∧ verifyChecksum p vs = true := by
  unfold decode at h
  rw [Res.bind_eq_ok] at h
  obtain ⟨⟨p, vs⟩, h1, h⟩ := h
  refine ⟨p, vs, h1, ?_⟩
  simp only at h
  cases hv : verifyChecksum p vs with
  | true => rfl
  | false => simp [hv] at h

theorem verify_single (p : Bytes) (va vb : List Nat) (v v' : Nat) (hv : v < 32) (hv' : v' < 32) (hne : v ≠ v')
    (h : verifyChecksum p (va ++ v :: vb) = true) : verifyChecksum p (va ++ v' :: vb) = false := by
  by_contra h'
  rw [Bool.not_eq_false] at h'
  unfold verifyChecksum polyMod at h h'
  rw [beq_iff_eq] at h h'
  have e : run bech32Code 1 ((expandPrefix p ++ va) ++ v :: vb) = run bech32Code 1 ((expandPrefix p ++ va) ++ v' :: vb) := by
    have h1 := xor_eq_zero' h
    have h2 := xor_eq_zero' h'
    rw [List.append_assoc, List.append_assoc, h1, h2]
  exact hne (run_single good_bech32 fit_bech32 1 _ _ v v' hv hv' e)

end Verif.Bech32

namespace Verif.CashAddr
open Verif Verif.PolyMod Verif.Bech32

theorem decode_ok {t b : Bytes} (h : decode t = .ok b) :
    ∃ p vs, parse 0x3a t = .ok (p, vs) ∧ (p = asc "bitcoincash" → verifyChecksum bitcoincashExpandPrefix vs = true) := by
  unfold decode at h
  rw [Res.bind_eq_ok] at h
  obtain ⟨⟨p, vs⟩, h1, h⟩ := h
  refine ⟨p, vs, h1, ?_⟩
  intro hp
  simp only at h
  cases hv : verifyChecksum bitcoincashExpandPrefix vs with
  | true => rfl
  | false => simp [hv, hp] at h

theorem verify_single (e : List Nat) (va vb : List Nat) (v v' : Nat) (hv : v < 32) (hv' : v' < 32) (hne : v ≠ v')
    (h : verifyChecksum e (va ++ v :: vb) = true) : verifyChecksum e (va ++ v' :: vb) = false := by
  by_contra h'
  rw [Bool.not_eq_false] at h'
  unfold verifyChecksum polyMod at h h'
  rw [beq_iff_eq] at h h'
  have e' : run cashCode 1 ((e ++ va) ++ v :: vb) = run cashCode 1 ((e ++ va) ++ v' :: vb) := by
    have h1 := xor_eq_zero' h
    have h2 := xor_eq_zero' h'
    rw [List.append_assoc, List.append_assoc, h1, h2]
  exact hne (run_single good_cash fit_cash 1 _ _ v v' hv hv' e')

end Verif.CashAddr

namespace Verif.Bech32m
open Verif Verif.PolyMod

theorem verify_single (p : Bytes) (va vb : List Nat) (v v' : Nat) (hv : v < 32) (hv' : v' < 32) (hne : v ≠ v')
    (s : Spec) (h : verifyChecksum p (va ++ v :: vb) = some s) : verifyChecksum p (va ++ v' :: vb) ≠ some s := by
  intro h'
  have key : ∀ d, verifyChecksum p d = some s → polymod (hrpExpand p ++ d) =
      (match s with | .bech32 => 1 | .bech32m => bech32mConst) := by
    intro d hd
    unfold verifyChecksum at hd
    simp only at hd
    split_ifs at hd with h1 h2 <;> cases hd
    · exact h1
    · exact h2
  have e := (key _ h).trans (key _ h').symm
  unfold polymod at e
  rw [← List.append_assoc, ← List.append_assoc] at e
  exact hne (run_single good_bech32 fit_bech32 1 _ _ v v' hv hv' e)

end Verif.Bech32m
