import Verif.Lemmas.Bech32Err
import Verif.Lemmas.Base58
import Verif.Lemmas.AddressPanic
import Verif.Spec.Bech32Lang

/-! What the scanner and the symbol table accept, exactly. -/

namespace Verif.Bech32
open Verif Verif.PolyMod
open Verif.Base58 (horner)
open Verif.Spec.Bech32Lang

theorem small_iff (c : UInt8) : Small c ↔ (0x61 ≤ c ∧ c ≤ 0x7a) := by
  unfold Small; simp only [UInt8.le_iff_toNat_le]; exact Iff.rfl
theorem capital_iff (c : UInt8) : Capital c ↔ (0x41 ≤ c ∧ c ≤ 0x5a) := by
  unfold Capital; simp only [UInt8.le_iff_toNat_le]; exact Iff.rfl
theorem digit_iff (c : UInt8) : Digit c ↔ (0x30 ≤ c ∧ c ≤ 0x39) := by
  unfold Digit; simp only [UInt8.le_iff_toNat_le]; exact Iff.rfl
theorem isLow_iff (c : UInt8) : isLow c = true ↔ Small c := by rw [small_iff]; simp [isLow]
theorem isUp_iff (c : UInt8) : isUp c = true ↔ Capital c := by rw [capital_iff]; simp [isUp]

theorem symbol_lt {c : UInt8} {v : Nat} (h : Symbol c v) : v < 32 := by
  have hl : alphabet.length = 32 := by decide +kernel
  rw [← hl]
  rcases h with h | ⟨_, h⟩ <;> exact (List.getElem?_eq_some_iff.mp h).1

theorem rev_iff (c : UInt8) (v : Nat) : rev c = some v ↔ Symbol c v := by
  have key : ∀ c : UInt8, ∀ v : Fin 32, rev c = some v.val ↔ Symbol c v.val := by
    apply Hex.u8_forall; decide +kernel
  constructor
  · intro h
    exact (key c ⟨v, (rev_spec c v (by simp [h])).1⟩).mp h
  · intro h
    exact (key c ⟨v, symbol_lt h⟩).mpr h

theorem revAll_iff : ∀ (d : Bytes) (vs : List Nat), revAll d = some vs ↔ List.Forall₂ Symbol d vs
  | [], vs => by
    simp only [revAll, Option.some.injEq, List.forall₂_nil_left_iff]
    exact eq_comm
  | c :: cs, vs => by
    constructor
    · intro h
      simp only [revAll] at h
      cases hc : rev c with
      | none => simp [hc] at h
      | some v =>
        cases hr : revAll cs with
        | none => simp [hc, hr] at h
        | some ws =>
          simp only [hc, hr, Option.some.injEq] at h
          subst h
          exact List.Forall₂.cons ((rev_iff c v).mp hc) ((revAll_iff cs ws).mp hr)
    · intro h
      cases h with
      | @cons _ v _ ws h1 h2 =>
        simp only [revAll, (rev_iff c v).mpr h1, (revAll_iff cs ws).mpr h2]

theorem symbol_alnum (c : UInt8) (v : Nat) (h : Symbol c v) :
    (Small c ∨ Capital c ∨ Digit c) ∧ c ≠ 0x31 ∧ c ≠ 0x3a := by
  have key : ∀ c : UInt8, ∀ v : Fin 32, Symbol c v.val → (Small c ∨ Capital c ∨ Digit c) ∧ c ≠ 0x31 ∧ c ≠ 0x3a := by
    apply Hex.u8_forall; decide +kernel
  exact key c ⟨v, symbol_lt h⟩ h

theorem symbols_alnum {d : Bytes} {vs : List Nat} (h : List.Forall₂ Symbol d vs) :
    ∀ c ∈ d, (Small c ∨ Capital c ∨ Digit c) ∧ c ≠ 0x31 ∧ c ≠ 0x3a := by
  induction h with
  | nil => simp
  | @cons c v _ _ h1 _ ih =>
    intro x hx
    rcases List.mem_cons.mp hx with rfl | hx
    · exact symbol_alnum _ v h1
    · exact ih x hx

theorem symbols_lt {d : Bytes} {vs : List Nat} (h : List.Forall₂ Symbol d vs) : ∀ v ∈ vs, v < 32 :=
  revAll_lt d vs ((revAll_iff d vs).mpr h)

/-- Scanning letters and digits other than the separator succeeds. -/
theorem scan_alnum (sep : UInt8) : ∀ (cs : Bytes) (i : Nat) (s : Scan),
    (∀ c ∈ cs, (Small c ∨ Capital c ∨ Digit c) ∧ c ≠ sep) →
    ∃ s', scan sep i s cs = some s' ∧ ((∀ c ∈ cs, Small c ∨ Capital c) → s'.hasNumber = s.hasNumber)
  | [], i, s, _ => ⟨s, rfl, fun _ => rfl⟩
  | c :: cs, i, s, h => by
    have hcs : ∀ x ∈ cs, (Small x ∨ Capital x ∨ Digit x) ∧ x ≠ sep := fun x hx => h x (by simp [hx])
    obtain ⟨hc, hcn⟩ := h c (by simp)
    simp only [scan]
    by_cases h1 : 0x61 ≤ c ∧ c ≤ 0x7a
    · obtain ⟨s', e1, e2⟩ := scan_alnum sep cs (i + 1) { s with lower := true } hcs
      exact ⟨s', by rw [if_pos h1, e1], fun hl => e2 (fun x hx => hl x (by simp [hx]))⟩
    by_cases h2 : 0x41 ≤ c ∧ c ≤ 0x5a
    · obtain ⟨s', e1, e2⟩ := scan_alnum sep cs (i + 1) { s with upper := true } hcs
      exact ⟨s', by rw [if_neg h1, if_pos h2, e1], fun hl => e2 (fun x hx => hl x (by simp [hx]))⟩
    have h3 : 0x30 ≤ c ∧ c ≤ 0x39 := by
      rw [small_iff, capital_iff, digit_iff] at hc; tauto
    obtain ⟨s', e1, e2⟩ := scan_alnum sep cs (i + 1) { s with hasNumber := true } hcs
    refine ⟨s', by rw [if_neg h1, if_neg h2, if_pos ⟨h3, hcn⟩, e1], fun hl => ?_⟩
    rcases hl c (by simp) with h | h
    · rw [small_iff] at h; exact absurd h h1
    · rw [capital_iff] at h; exact absurd h h2

/-- A successful scan without separator: only letters and digits; without a digit seen, only letters. -/
theorem scan_chars (sep : UInt8) : ∀ (cs : Bytes) (i : Nat) (s s' : Scan), scan sep i s cs = some s' → sep ∉ cs →
    (∀ c ∈ cs, Small c ∨ Capital c ∨ Digit c) ∧ (s'.hasNumber = false → ∀ c ∈ cs, Small c ∨ Capital c)
  | [], i, s, s', _, _ => by simp
  | c :: cs, i, s, s', h, hn => by
    simp only [List.mem_cons, not_or] at hn
    simp only [scan] at h
    split_ifs at h with h1 h2 h3 h4 h5
    · obtain ⟨k1, k2⟩ := scan_chars sep cs _ _ _ h hn.2
      rw [← small_iff] at h1
      exact ⟨by simp only [List.mem_cons]; rintro x (rfl | hx); exacts [Or.inl h1, k1 x hx],
        fun hf => by simp only [List.mem_cons]; rintro x (rfl | hx); exacts [Or.inl h1, k2 hf x hx]⟩
    · obtain ⟨k1, k2⟩ := scan_chars sep cs _ _ _ h hn.2
      rw [← capital_iff] at h2
      exact ⟨by simp only [List.mem_cons]; rintro x (rfl | hx); exacts [Or.inr (Or.inl h2), k1 x hx],
        fun hf => by simp only [List.mem_cons]; rintro x (rfl | hx); exacts [Or.inr h2, k2 hf x hx]⟩
    · obtain ⟨k1, k2⟩ := scan_chars sep cs _ _ _ h hn.2
      have := scan_hasNumber_mono sep cs _ _ _ h rfl
      refine ⟨by simp only [List.mem_cons]; rintro x (rfl | hx); exacts [Or.inr (Or.inr ((digit_iff x).mpr h3.1)), k1 x hx], ?_⟩
      intro hf; rw [this] at hf; cases hf
    · exact absurd h4.symm hn.1

theorem oneCase_iff (t : Bytes) : OneCase t ↔ ¬ (t.any isUp = true ∧ t.any isLow = true) := by
  have e1 : t.any isUp = true ↔ ∃ c ∈ t, Capital c := by simp only [List.any_eq_true, isUp_iff]
  have e2 : t.any isLow = true ↔ ∃ c ∈ t, Small c := by simp only [List.any_eq_true, isLow_iff]
  rw [e1, e2]
  unfold OneCase
  constructor
  · rintro (h | h) ⟨⟨c, hc, k⟩, d, hd, l⟩
    · exact h d hd l
    · exact h c hc k
  · intro h
    by_cases k : ∃ c ∈ t, Capital c
    · left; intro c hc l; exact h ⟨k, c, hc, l⟩
    · right; intro c hc l; exact k ⟨c, hc, l⟩

theorem takeWhile_all {f : UInt8 → Bool} : ∀ {l : Bytes}, (∀ c ∈ l, f c = true) → l.takeWhile f = l
  | [], _ => rfl
  | c :: cs, h => by
    rw [List.takeWhile_cons, if_pos (h c (by simp)), takeWhile_all (fun x hx => h x (by simp [hx]))]

/-- Exactly what `parse` accepts. -/
theorem parse_iff (sep : UInt8) (hs : sep = 0x31 ∨ sep = 0x3a) (t p : Bytes) (vs : List Nat) :
    parse sep t = .ok (p, vs) ↔
      ∃ d, (Separated sep t p d ∨ (Unseparated sep t d ∧ p = t)) ∧ OneCase t ∧ List.Forall₂ Symbol d vs := by
  have hsep1 : ¬ (0x61 ≤ sep ∧ sep ≤ 0x7a) := by rcases hs with rfl | rfl <;> decide
  have hsep2 : ¬ (0x41 ≤ sep ∧ sep ≤ 0x5a) := by rcases hs with rfl | rfl <;> decide
  have hletter : ∀ c, Small c ∨ Capital c → c ≠ sep := by
    rintro c h rfl
    rw [small_iff, capital_iff] at h; tauto
  constructor
  · intro h
    by_cases hm : sep ∈ t
    · obtain ⟨hrp, rest, ht, hn⟩ := List.eq_append_cons_of_mem hm
      subst ht
      obtain ⟨e1, e2, e3, _⟩ := parse_split sep hs hrp rest hn p vs h
      refine ⟨rest, Or.inl ⟨by rw [e1]; exact e3, ?_, by rw [e1]⟩, ?_, (revAll_iff rest vs).mp e2⟩
      all_goals
        unfold parse at h
        cases hsc : scan sep 0 ⟨false, false, false, 0⟩ (hrp ++ sep :: rest) with
        | none => rw [hsc] at h; cases h
        | some s => ?_
        rw [hsc] at h
        simp only at h
      · rw [scan_append] at hsc
        cases hsc1 : scan sep 0 ⟨false, false, false, 0⟩ hrp with
        | none => rw [hsc1] at hsc; cases hsc
        | some s1 =>
          rw [hsc1] at hsc
          simp only [Option.bind_some, Nat.zero_add] at hsc
          simp only [scan, if_neg hsep1, if_neg hsep2] at hsc
          rw [if_neg (by simp), if_pos trivial] at hsc
          split_ifs at hsc with hc
          simp only [not_or] at hc
          rw [e1]
          exact (scan_chars sep hrp _ _ _ hsc1 hn).2 (by simpa using hc.1)
      · obtain ⟨f1, f2⟩ := scan_flags sep hs _ _ _ _ hsc
        split_ifs at h with hc hl
        simp only [Bool.false_or] at f1 f2
        rw [f1, f2] at hc
        exact (oneCase_iff _).mpr hc
    · unfold parse at h
      cases hsc : scan sep 0 ⟨false, false, false, 0⟩ t with
      | none => rw [hsc] at h; cases h
      | some s =>
        rw [hsc] at h
        simp only at h
        obtain ⟨f1, f2⟩ := scan_flags sep hs _ _ _ _ hsc
        have hp := scan_prefixSize sep t _ _ _ hsc hm
        have hch := (scan_chars sep t _ _ _ hsc hm).1
        simp only [Bool.false_or] at f1 f2
        split_ifs at h with hc hl
        rw [f1, f2] at hc
        simp only at hp
        rw [hp] at h hl
        cases t with
        | nil => simp at hl
        | cons x d =>
          simp only [Nat.zero_add, List.drop_one, List.tail_cons] at h
          cases hr : revAll d with
          | none => rw [hr] at h; cases h
          | some ws =>
            rw [hr] at h
            simp only [Res.ok.injEq, Prod.mk.injEq] at h
            obtain ⟨h1, rfl⟩ := h
            refine ⟨d, Or.inr ⟨⟨hm, x, hch x (by simp), rfl⟩, ?_⟩, (oneCase_iff _).mpr hc, (revAll_iff d ws).mp hr⟩
            rw [← h1]
            apply takeWhile_all
            intro c hcc
            simp only [ne_eq, decide_not, Bool.not_eq_eq_eq_not, Bool.not_true, decide_eq_false_iff_not]
            rintro rfl; exact hm hcc
  · rintro ⟨d, hsplit, hcase, hsym⟩
    have hd := symbols_alnum hsym
    have hdn : ∀ c ∈ d, c ≠ sep := fun c hc => by
      rcases hs with rfl | rfl
      · exact (hd c hc).2.1
      · exact (hd c hc).2.2
    rw [oneCase_iff] at hcase
    rcases hsplit with ⟨hne, hlet, rfl⟩ | ⟨⟨hm, x, hx, rfl⟩, rfl⟩
    · have hn : sep ∉ p := fun h => hletter _ (hlet _ h) rfl
      have hl0 : p.length ≠ 0 := by simpa using hne
      obtain ⟨s1, e1, n1⟩ := scan_alnum sep p 0 ⟨false, false, false, 0⟩
        (fun c hc => ⟨by rcases hlet c hc with h | h <;> simp [h], hletter c (hlet c hc)⟩)
      have p1 := scan_prefixSize sep p _ _ _ e1 hn
      obtain ⟨s2, e2, _⟩ := scan_alnum sep d (p.length + 1) { s1 with prefixSize := p.length }
        (fun c hc => ⟨(hd c hc).1, hdn c hc⟩)
      have p2 := scan_prefixSize sep d _ _ _ e2 (fun h => hdn _ h rfl)
      have hsc : scan sep 0 ⟨false, false, false, 0⟩ (p ++ sep :: d) = some s2 := by
        rw [scan_append, e1]
        simp only [Option.bind_some, Nat.zero_add, scan, if_neg hsep1, if_neg hsep2]
        rw [if_neg (by simp), if_pos trivial, if_neg, e2]
        rw [n1 hlet, p1]
        simp [hne]
      obtain ⟨f1, f2⟩ := scan_flags sep hs _ _ _ _ hsc
      simp only [Bool.false_or] at f1 f2
      have hdr : (p ++ sep :: d).drop (s2.prefixSize + 1) = d := by
        rw [p2, show p ++ sep :: d = (p ++ [sep]) ++ d by simp]
        exact List.drop_left' (by simp)
      have htw : (p ++ sep :: d).takeWhile (· ≠ sep) = p := by
        rw [List.takeWhile_append_of_pos]
        · simp
        · intro c hcc; simp only [ne_eq, decide_not, Bool.not_eq_eq_eq_not, Bool.not_true, decide_eq_false_iff_not]
          rintro rfl; exact hn hcc
      unfold parse
      rw [hsc]
      simp only
      rw [f1, f2, if_neg hcase, if_neg (by rw [p2]; simp), hdr, (revAll_iff d vs).mpr hsym, htw]
    · have hall : ∀ c ∈ x :: d, (Small c ∨ Capital c ∨ Digit c) ∧ c ≠ sep := by
        simp only [List.mem_cons]
        rintro c (rfl | hc)
        · exact ⟨hx, fun h => hm (by simp [h])⟩
        · exact ⟨(hd c hc).1, hdn c hc⟩
      obtain ⟨s2, e2, _⟩ := scan_alnum sep (x :: d) 0 ⟨false, false, false, 0⟩ hall
      have p2 := scan_prefixSize sep _ _ _ _ e2 hm
      obtain ⟨f1, f2⟩ := scan_flags sep hs _ _ _ _ e2
      simp only [Bool.false_or] at f1 f2
      have htw : (x :: d).takeWhile (· ≠ sep) = x :: d := by
        apply takeWhile_all
        intro c hcc
        simp only [ne_eq, decide_not, Bool.not_eq_eq_eq_not, Bool.not_true, decide_eq_false_iff_not]
        rintro rfl; exact hm hcc
      unfold parse
      rw [e2]
      simp only
      rw [f1, f2, if_neg hcase, p2, if_neg (by simp)]
      simp only [Nat.zero_add, List.drop_one, List.tail_cons]
      rw [(revAll_iff d vs).mpr hsym, htw]

theorem number_eq (vs : List Nat) : number vs = horner 32 0 vs := by
  have : ∀ (vs : List Nat) (a : Nat), vs.foldl (fun n v => 32 * n + v) a = horner 32 a vs := by
    intro vs
    induction vs with
    | nil => intro a; rfl
    | cons v vs ih => intro a; simp only [List.foldl_cons, horner]; exact ih _
  exact this vs 0

/-- What `decode` makes of symbols with a correct checksum, if the result has 20 or 32 bytes. -/
theorem decode_payload (vs : List Nat) (hv : ∀ v ∈ vs, v < 32) (r : Bytes) :
    ((do
      if vs.length < 6 then .panic
      else
        let ret ← unextendPayload (vs.take (vs.length - 6))
        if ret.length = 33 then do
          let tmp ← slice (Hex.encode ret) 1 65
          match Hex.decode tmp with
          | .ok b => .ok b
          | _ => .ok []
        else .ok ret : Res Bytes) = .ok r ∧ (r.length = 20 ∨ r.length = 32)) ↔
      ((vs.length = 38 ∨ vs.length = 39) ∧ r = beBytes 20 (number (vs.take (vs.length - 6)))) ∨
      (vs.length = 58 ∧ r = beBytes 32 (number (vs.take (vs.length - 6)))) ∨
      ((vs.length = 59 ∨ vs.length = 60) ∧ r = beBytes 32 (number (vs.take (vs.length - 6)) / 16)) := by
  rw [number_eq]
  by_cases h6 : vs.length < 6
  · rw [if_pos h6]
    constructor
    · rintro ⟨h, _⟩; cases h
    · omega
  rw [if_neg h6]
  have hlen : (vs.take (vs.length - 6)).length = vs.length - 6 := by simp
  have hlt : ∀ v ∈ vs.take (vs.length - 6), v < 32 := fun v h => hv v (List.mem_of_mem_take h)
  by_cases h8 : vs.length < 8
  · constructor
    · rintro ⟨h, _⟩
      rw [Res.bind_eq_ok] at h
      obtain ⟨ret, h, _⟩ := h
      exfalso
      generalize vs.take (vs.length - 6) = w at *
      match w, hlen with
      | [], _ => simp [unextendPayload, untake] at h
      | [e], _ => simp [unextendPayload, untake, orLast] at h
      | _ :: _ :: _, hlen => simp at hlen; omega
    · omega
  rw [unextendPayload_val _ (by rw [hlen]; omega) hlt, hlen]
  generalize horner 32 0 (vs.take (vs.length - 6)) = N
  simp only [Res.bind_ok, beBytes_length]
  by_cases h33 : (vs.length - 6) * 5 / 8 = 33
  · rw [if_pos h33, h33]
    have hs : slice (Hex.encode (beBytes 33 N)) 1 65 = .ok (((Hex.encode (beBytes 33 N)).take (2 * 32 + 1)).drop 1) :=
      slice_ok (by omega) (by simp)
    rw [hs]
    simp only [Res.bind_ok]
    rw [hex_nibble_shift _ 32 (by simp)]
    simp only [Res.ok.injEq]
    have hb : beBytes 32 (beNat (beBytes 33 N) / 16) = beBytes 32 (N / 16) := by
      apply beNat_inj (by simp)
      rw [beNat_beBytes, beNat_beBytes, beNat_beBytes]
      have e : (256 : Nat) ^ 33 = 16 * (16 * 256 ^ 32) := by norm_num
      rw [e, Nat.mod_mul_right_div_self, Nat.mod_mul_left_mod]
    rw [hb]
    have hn : vs.length = 59 ∨ vs.length = 60 := by omega
    constructor
    · rintro ⟨rfl, _⟩; right; right; exact ⟨hn, rfl⟩
    · rintro (⟨h, _⟩ | ⟨h, _⟩ | ⟨_, rfl⟩)
      · omega
      · omega
      · exact ⟨rfl, Or.inr (by simp)⟩
  · rw [if_neg h33]
    simp only [Res.ok.injEq]
    constructor
    · rintro ⟨rfl, hl⟩
      rw [beBytes_length] at hl
      rcases hl with hl | hl
      · left; exact ⟨by omega, by rw [hl]⟩
      · right; left; exact ⟨by omega, by rw [hl]⟩
    · rintro (⟨h, rfl⟩ | ⟨h, rfl⟩ | ⟨h, _⟩)
      · have : (vs.length - 6) * 5 / 8 = 20 := by omega
        rw [this]; exact ⟨rfl, by simp⟩
      · have : (vs.length - 6) * 5 / 8 = 32 := by omega
        rw [this]; exact ⟨rfl, by simp⟩
      · omega

end Verif.Bech32

namespace Verif.PolyMod
open Verif.Base58 (horner)

/-- At most as many trailing symbols as the state holds are determined by the result. -/
theorem run_tail_inj (k : Code) (c : Nat) (x u w : List Nat) (hl : u.length = w.length) (hu : ∀ v ∈ u, v < 32)
    (hw : ∀ v ∈ w, v < 32) (hk : 5 * u.length ≤ k.shift + 5) (h : run k c (x ++ u) = run k c (x ++ w)) : u = w := by
  rw [run_append, run_append, run_split k _ u, run_split k _ w, hl] at h
  have h' := Nat.xor_right_injective h
  rw [run_pack k u 0 0 (by simp) hu (by simpa using hk), run_pack k w 0 0 (by simp) hw (by simpa [← hl] using hk)] at h'
  apply Bech32m.horner_inj (b := 32) (by omega) u w hl hu hw
  have e : ∀ (vs : List Nat) (a : Nat), vs.foldl (fun c v => c * 32 + v) a = horner 32 a vs := by
    intro vs
    induction vs with
    | nil => intro a; rfl
    | cons v vs ih => intro a; simp only [List.foldl_cons, horner]; rw [ih, Nat.mul_comm]
  rw [← e, ← e, h']

end Verif.PolyMod

namespace Verif.Bech32
open Verif Verif.PolyMod Verif.Spec.Bech32Lang
open Verif.Base58 (horner horner_append)

/-- Symbols written without capital letters are the characters of the alphabet. -/
theorem toChars_symbols {d : Bytes} {vs : List Nat} (h : List.Forall₂ Symbol d vs) (hs : ∀ c ∈ d, ¬ Capital c) :
    toChars stdAlphabet vs = .ok d := by
  have ha : stdAlphabet = alphabet := by decide +kernel
  induction h with
  | nil => rfl
  | @cons c v cs ws h1 h2 ih =>
    have hc := hs c (by simp)
    have ih' := ih (fun x hx => hs x (by simp [hx]))
    rcases h1 with h1 | ⟨h1, _⟩
    · have : index stdAlphabet v = .ok c := by unfold index; rw [ha, h1]
      simp only [toChars, this, ih']
    · exact absurd h1 hc

/-- The checksum is determined by the rest. -/
theorem checksum_unique (p : Bytes) (data cs : List Nat) (hd : ∀ v ∈ data, v < 32) (hc : ∀ v ∈ cs, v < 32) (hl : cs.length = 6)
    (h : verifyChecksum p (data ++ cs) = true) : cs = calcChecksum p data := by
  have h2 := verify_calc p data hd
  unfold verifyChecksum polyMod at h h2
  rw [beq_iff_eq] at h h2
  have e := (xor_eq_zero' h).trans (xor_eq_zero' h2).symm
  rw [← List.append_assoc, ← List.append_assoc] at e
  refine run_tail_inj bech32Code 1 (expandPrefix p ++ data) cs (calcChecksum p data) ?_ hc (symbolsOf_lt _ _) ?_ e
  · rw [hl]; exact (symbolsOf_length _ _).symm
  · rw [hl]; decide

theorem drop_version (V P L K : Nat) (hL : L = K * 16) (hP : P < K) : (V * L + P * 2 ^ 4) / 16 % K = P := by
  subst hL
  rw [show V * (K * 16) + P * 2 ^ 4 = (V * K + P) * 16 by ring, Nat.mul_div_cancel _ (by omega), Nat.add_comm,
    Nat.add_mul_mod_self_right, Nat.mod_eq_of_lt hP]

theorem number_snoc (vs : List Nat) (v : Nat) : number (vs ++ [v]) = 32 * number vs + v := by
  unfold number; rw [List.foldl_append]; rfl

theorem number_lt (vs : List Nat) (h : ∀ v ∈ vs, v < 32) : number vs < 32 ^ vs.length := by
  rw [number_eq, Base58.horner_eq]
  have := Nat.ofDigits_lt_base_pow_length (b := 32) (by omega) (l := vs.reverse) (by simpa using h)
  simpa using this

end Verif.Bech32

namespace Verif.CashAddr
open Verif Verif.PolyMod Verif.Bech32 Verif.Spec.Bech32Lang
open Verif.Base58 (horner horner_append)

theorem orLast_zero {r : Bytes} (hr : r ≠ []) : orLast r 0 = .ok r := by
  obtain ⟨a, x, rfl⟩ : ∃ a x, r = a ++ [x] := ⟨r.dropLast, r.getLast hr, (List.dropLast_append_getLast hr).symm⟩
  unfold orLast
  split
  · rename_i h; exact absurd h hr
  · simp

/-- With 35 symbols the last one is dropped. -/
theorem untake35 : ∀ (es : List Nat) (e f : Nat) (ret : Bytes), ret ≠ [] → (∀ v ∈ es ++ [e, f], v < 32) →
    untake 35 (es ++ [e, f]) ret = Bech32.untake (es ++ [e]) ret
  | [], e, f, ret, hr, hv => by
    obtain ⟨r, h1, h2⟩ := orLast_length hr e
    have hne : r ≠ [] := ne_nil_of_length h2 hr
    have hf : f >>> 7 = 0 := by
      have := hv f (by simp)
      rw [Nat.shiftRight_eq_div_pow]; omega
    simp only [List.nil_append, untake, Bech32.untake, h1]
    show orLast (shlN 0 r) (f >>> 7) = _
    rw [hf]; exact orLast_zero hne
  | a :: es, e, f, ret, hr, hv => by
    obtain ⟨r, h1, h2⟩ := orLast_length hr a
    have hne : byteShl5 r ≠ [] := ne_nil_of_length (byteShl5_length' _) (ne_nil_of_length h2 hr)
    have ih := untake35 es e f (byteShl5 r) hne (fun v hv' => hv v (by simp [List.mem_cons] at hv' ⊢; tauto))
    have l : untake 35 (a :: es ++ [e, f]) ret = untake 35 (es ++ [e, f]) (byteShl5 r) := by
      cases es with
      | nil =>
        simp only [List.cons_append, List.nil_append]
        conv_lhs => unfold untake
        simp only [h1]
      | cons b bs =>
        simp only [List.cons_append]
        rw [untake, h1]
        simp
    have l2 : Bech32.untake (a :: es ++ [e]) ret = Bech32.untake (es ++ [e]) (byteShl5 r) := by
      cases es with
      | nil => simp only [List.cons_append, List.nil_append, Bech32.untake, h1]
      | cons b bs => simp only [List.cons_append, Bech32.untake, h1]
    rw [l, l2, ih]

theorem unextend35 (ext : List Nat) (hl : ext.length = 35) (hv : ∀ v ∈ ext, v < 32) :
    unextendPayload ext = .ok (beBytes 21 (horner 32 0 (ext.take 34))) := by
  obtain ⟨es, e, f, rfl⟩ : ∃ es e f, ext = es ++ [e, f] := by
    have h1 := List.take_append_drop 33 ext
    have h2 : (ext.drop 33).length = 2 := by simp [hl]
    match h3 : ext.drop 33, h2 with
    | [e, f], _ => exact ⟨ext.take 33, e, f, by rw [← h3, h1]⟩
  have hes : es.length = 33 := by simpa using hl
  have ht : (es ++ [e, f]).take 34 = es ++ [e] := by
    rw [show es ++ [e, f] = (es ++ [e]) ++ [f] by simp]
    exact List.take_left' (by simp [hes])
  have hlt : ∀ v ∈ es ++ [e], v < 32 := fun v h => hv v (by simp at h ⊢; tauto)
  have := Bech32.unextendPayload_val (es ++ [e]) (by simp [hes]) hlt
  unfold Bech32.unextendPayload at this
  unfold unextendPayload
  rw [hl, ht, untake35 es e f _ (by simp) hv]
  simpa [hes] using this

/-- What `decode` makes of symbols, if the result has 21 bytes. -/
theorem decode_payload (vs : List Nat) (hv : ∀ v ∈ vs, v < 32) (r : Bytes) :
    ((if vs.length < 8 then .panic else unextendPayload (vs.take (vs.length - 8)) : Res Bytes) = .ok r ∧ r.length = 21) ↔
      (vs.length = 42 ∧ r = beBytes 21 (number (vs.take 34) / 4)) ∨ (vs.length = 43 ∧ r = beBytes 21 (number (vs.take 34))) := by
  rw [number_eq]
  by_cases h8 : vs.length < 8
  · rw [if_pos h8]
    constructor
    · rintro ⟨h, _⟩; cases h
    · omega
  rw [if_neg h8]
  have hlen : (vs.take (vs.length - 8)).length = vs.length - 8 := by simp
  have hlt : ∀ v ∈ vs.take (vs.length - 8), v < 32 := fun v h => hv v (List.mem_of_mem_take h)
  by_cases h42 : vs.length = 42
  · rw [unextend34 _ (by rw [hlen]; omega) hlt]
    simp only [h42, Res.ok.injEq]
    constructor
    · rintro ⟨rfl, _⟩; exact Or.inl ⟨trivial, rfl⟩
    · rintro (⟨_, rfl⟩ | ⟨h, _⟩)
      · exact ⟨rfl, by simp⟩
      · omega
  by_cases h43 : vs.length = 43
  · rw [unextend35 _ (by rw [hlen]; omega) hlt]
    simp only [h43, Res.ok.injEq, List.take_take]
    constructor
    · rintro ⟨rfl, _⟩; exact Or.inr ⟨trivial, rfl⟩
    · rintro (⟨h, _⟩ | ⟨_, rfl⟩)
      · omega
      · exact ⟨rfl, by simp⟩
  constructor
  · rintro ⟨h, hr⟩
    exfalso
    by_cases h10 : vs.length < 10
    · generalize vs.take (vs.length - 8) = w at *
      match w, hlen with
      | [], _ => simp [unextendPayload, untake] at h
      | [e], _ => simp [unextendPayload, untake, orLast] at h
      | _ :: _ :: _, hlen => simp at hlen; omega
    · obtain ⟨r', h1, h2⟩ := untake_ne_panic (vs.take (vs.length - 8)).length (vs.take (vs.length - 8))
        (List.replicate ((vs.take (vs.length - 8)).length * 5 / 8) 0) (by rw [hlen]; omega) (by
          rw [hlen]; simp; omega)
      unfold unextendPayload at h
      rw [h1] at h
      cases h
      rw [List.length_replicate, hlen] at h2
      omega
  · omega

/-- The checksum is determined by the rest. -/
theorem checksum_unique (data cs : List Nat) (hd : ∀ v ∈ data, v < 32) (hc : ∀ v ∈ cs, v < 32) (hl : cs.length = 8)
    (h : verifyChecksum bitcoincashExpandPrefix (data ++ cs) = true) : cs = calcChecksum bitcoincashExpandPrefix data := by
  have h2 := verify_calc data hd
  unfold verifyChecksum polyMod at h h2
  rw [beq_iff_eq] at h h2
  have e := (xor_eq_zero' h).trans (xor_eq_zero' h2).symm
  rw [← List.append_assoc, ← List.append_assoc] at e
  refine run_tail_inj cashCode 1 (bitcoincashExpandPrefix ++ data) cs (calcChecksum bitcoincashExpandPrefix data) ?_ hc
    (symbolsOf_lt _ _) ?_ e
  · rw [hl]; exact (symbolsOf_length _ _).symm
  · rw [hl]; decide

end Verif.CashAddr
