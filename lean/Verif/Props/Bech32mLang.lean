import Verif.Lemmas.Bech32mLang
import Verif.Props.Bch
import Verif.Props.Address

/-! C137: exactly which texts are accepted as Chia addresses. -/

namespace Verif
open Verif.Addr Verif.Spec Verif.Spec.Bch Verif.Spec.Bech32Lang

namespace Bech32m

theorem xch_unfold (H : Hashes) (t p : Bytes) :
    addressEncode H p XCH_mainnetAddress = (match bech32mEncode (asc "xch") p Bech32.stdAlphabet with
      | .ok t => .ok t
      | .err => .ok []
      | .panic => .panic) ∧
    addressDecode H t XCH_mainnetAddress = (match bech32mDecode t (asc "xch") Bech32.stdAlphabet with
      | .ok (some b) => .ok b
      | .ok none => .ok []
      | .err => .err
      | .panic => .panic) := ⟨rfl, rfl⟩

theorem lower_iff (t s : Bytes) : t.map toLower = s ↔ List.Forall₂ SameLetter t s ∧ ∀ c ∈ s, ¬ Capital c := by
  have key : ∀ c : UInt8, SameLetter c (toLower c) ∧ ¬ Capital (toLower c) := by apply Hex.u8_forall; decide +kernel
  have key2 : ∀ c : UInt8, Capital c → toLower c = c + 32 := by apply Hex.u8_forall; decide +kernel
  have key3 : ∀ c : UInt8, ¬ Capital c → toLower c = c := by apply Hex.u8_forall; decide +kernel
  constructor
  · rintro rfl
    induction t with
    | nil => exact ⟨.nil, by simp⟩
    | cons x xs ih =>
      refine ⟨.cons (key x).1 ih.1, ?_⟩
      intro c hc
      rcases List.mem_cons.mp hc with rfl | hc
      · exact (key x).2
      · exact ih.2 c hc
  · rintro ⟨h, hs⟩
    induction h with
    | nil => rfl
    | @cons c d t' s' h1 _ ih =>
      rw [List.map_cons, ih (fun c hc => hs c (by simp [hc]))]
      congr 1
      have hd := hs d (by simp)
      rcases h1 with rfl | ⟨h1, rfl⟩
      · exact key3 c hd
      · exact key2 c h1

theorem toChars_std {d : Bytes} {vs : List Nat} (h : List.Forall₂ (fun c v => alphabet[v]? = some c) d vs) :
    Bech32.toChars Bech32.stdAlphabet vs = .ok d := by
  have ha : Bech32.stdAlphabet = alphabet := by decide +kernel
  induction h with
  | nil => rfl
  | @cons c v cs ws h1 h2 ih =>
    have : index Bech32.stdAlphabet v = .ok c := by unfold index; rw [ha, h1]
    simp only [Bech32.toChars, this, ih]

theorem std_lt {d : Bytes} {vs : List Nat} (h : List.Forall₂ (fun c v => alphabet[v]? = some c) d vs) : ∀ v ∈ vs, v < 32 := by
  have hl : alphabet.length = 32 := by decide +kernel
  induction h with
  | nil => simp
  | cons h1 h2 ih =>
    intro v hv
    rcases List.mem_cons.mp hv with rfl | hv
    · rw [← hl]; exact (List.getElem?_eq_some_iff.mp h1).1
    · exact ih v hv

theorem ofNat_toNat {l : List Nat} (h : ∀ v ∈ l, v < 256) : (l.map UInt8.ofNat).map UInt8.toNat = l := by
  induction l with
  | nil => rfl
  | cons x xs ih =>
    simp only [List.map_cons, List.cons.injEq]
    refine ⟨?_, ih (fun v hv => h v (by simp [hv]))⟩
    rw [UInt8.toNat_ofNat']
    exact Nat.mod_eq_of_lt (h x (by simp))

theorem decode_case {t s : Bytes} (h : t.map toLower = s) (ht : OneCase t) (charset : Bytes) : decode t charset = decode s charset := by
  have hs : s.map toLower = s := (lower_fixed s).mpr ((lower_iff t s).mp h).2
  have hl : t.length = s.length := by rw [← h, List.length_map]
  unfold decode
  simp only [hl, h, hs]
  have := (oneCase_lower t).mp ht
  rw [h] at this
  simp only [if_neg this, ne_eq, not_true_eq_false, false_and, if_false]

/-- What is accepted is the text the encoder writes, in one case. -/
theorem accepted_iff (hrp : Bytes) (hh : IsHrp hrp) (t p : Bytes) : bech32mDecode t hrp Bech32.stdAlphabet = .ok (some p) ↔
    t.length ≤ 90 ∧ OneCase t ∧ ∃ s, bech32mEncode hrp p Bech32.stdAlphabet = .ok s ∧ t.map toLower = s := by
  constructor
  · intro h
    unfold bech32mDecode at h
    obtain ⟨⟨pre, data, spec⟩, h1, h0⟩ := Res.bind_eq_ok.mp h
    clear h
    simp only at h0
    by_cases hc : pre ≠ hrp ∨ spec ≠ .bech32m
    · rw [if_pos hc] at h0; simp at h0
    rw [if_neg hc] at h0
    simp only [ne_eq, not_or, not_not] at hc
    obtain ⟨rfl, rfl⟩ := hc
    obtain ⟨hash, h2, h3⟩ := Res.bind_eq_ok.mp h0
    simp only [Res.ok.injEq, Option.some.injEq] at h3
    subst h3
    obtain ⟨a1, a2, d, vs, a3, a4, a5, a6, a7, a8, rfl⟩ := (decode_iff _ _ _ _).mp h1
    have hv := std_lt a6
    obtain ⟨b1, b2⟩ := conv58_inv (fun v hm => hv v (List.mem_of_mem_take hm)) h2
    refine ⟨a1, a2, _, ?_, rfl⟩
    unfold bech32mEncode
    rw [ofNat_toNat b1, b2, Res.bind_ok]
    unfold encode
    have hsplit : vs = vs.take (vs.length - 6) ++ vs.drop (vs.length - 6) := (List.take_append_drop _ _).symm
    have hcs := checksum_unique pre (vs.take (vs.length - 6)) (vs.drop (vs.length - 6)) .bech32m
      (fun v hm => hv v (List.mem_of_mem_take hm)) (fun v hm => hv v (List.mem_of_mem_drop hm)) (by simp; omega) (by rw [← hsplit]; exact a8)
    rw [← hcs, ← hsplit, toChars_std a6]
    simp only [a3, List.append_assoc, List.cons_append, List.nil_append]
  · rintro ⟨h1, h2, s, h3, h4⟩
    have hsl : s.length = t.length := by rw [← h4, List.length_map]
    have hlen : s.length = hrp.length + 1 + (8 * p.length + 4) / 5 + 6 := by
      unfold bech32mEncode at h3
      obtain ⟨c, c1, c2, c3, c4⟩ := conv85 (p.map UInt8.toNat) (bytes_lt p)
      rw [c1, Res.bind_ok] at h3
      unfold encode at h3
      obtain ⟨cs, g1, g2, _⟩ := stdChars (c ++ createChecksum hrp c .bech32m) (by
        intro v hv
        rcases List.mem_append.mp hv with h | h
        · exact c3 v h
        · exact PolyMod.symbolsOf_lt _ _ v h)
      rw [g1] at h3
      simp only [Res.ok.injEq] at h3
      have hck : (createChecksum hrp c .bech32m).length = 6 := PolyMod.symbolsOf_length _ _
      simp only [List.length_map] at c2
      rw [← h3]
      simp only [List.length_append, List.length_singleton, g2, c2, hck]
      omega
    obtain ⟨s', e1, e2, e3⟩ := roundtrip hrp p hh (by omega)
    rw [h3] at e1
    cases e1
    have := decode_case h4 h2 Bech32.stdAlphabet
    unfold bech32mDecode at e3 ⊢
    rw [this]
    exact e3

theorem xch_hrp : IsHrp (asc "xch") := by
  refine ⟨by decide, ?_⟩
  decide +kernel

theorem std_small {d : Bytes} {vs : List Nat} (h : List.Forall₂ (fun c v => alphabet[v]? = some c) d vs) : ∀ c ∈ d, ¬ Capital c := by
  have key : ∀ c : UInt8, c ∈ alphabet → ¬ Capital c := by apply Hex.u8_forall; decide +kernel
  induction h with
  | nil => simp
  | cons h _ ih =>
    intro c hc
    rcases List.mem_cons.mp hc with rfl | hc
    · exact key _ (List.mem_of_getElem? h)
    · exact ih c hc

theorem xch_encodes (p : Bytes) : ∃ s, bech32mEncode (asc "xch") p Bech32.stdAlphabet = .ok s ∧ ∀ c ∈ s, ¬ Capital c := by
  obtain ⟨c, c1, c2, c3, c4⟩ := conv85 (p.map UInt8.toNat) (bytes_lt p)
  obtain ⟨cs, g1, g2, g3, g4⟩ := stdChars (c ++ createChecksum (asc "xch") c .bech32m) (by
    intro v hv
    rcases List.mem_append.mp hv with h | h
    · exact c3 v h
    · exact PolyMod.symbolsOf_lt _ _ v h)
  refine ⟨asc "xch" ++ [0x31] ++ cs, ?_, ?_⟩
  · unfold bech32mEncode
    rw [c1, Res.bind_ok]
    unfold encode
    rw [g1]
  · intro x hx
    simp only [List.mem_append, List.mem_singleton] at hx
    rcases hx with (h | h) | h
    · revert x; decide +kernel
    · subst h; decide
    · exact std_small ((revAll_std _ _).mp g3) x h

end Bech32m
open Bech32m

/-- C137: `AddressDecode` for Chia returns the payload `p` (which is not empty) for exactly the text that `AddressEncode` writes for `p`, if it has
at most 90 characters, and for the same text in capital letters. So a payload has one address and an address one payload. -/
theorem C137_accepted_partial (H : Hashes) (t p : Bytes) (hp : p ≠ []) :
    addressDecode H t XCH_mainnetAddress = .ok p ↔
      t.length ≤ 90 ∧ OneCase t ∧ ∃ s, addressEncode H p XCH_mainnetAddress = .ok s ∧ List.Forall₂ SameLetter t s := by
  have hd : addressDecode H t XCH_mainnetAddress = .ok p ↔ bech32mDecode t (asc "xch") Bech32.stdAlphabet = .ok (some p) := by
    rw [(xch_unfold H t p).2]
    cases h : bech32mDecode t (asc "xch") Bech32.stdAlphabet with
    | ok o => cases o <;> simp [hp, eq_comm]
    | err => simp
    | panic => simp
  rw [hd, accepted_iff _ xch_hrp, (xch_unfold H t p).1]
  obtain ⟨s, h1, h2⟩ := xch_encodes p
  rw [h1]
  simp only [Res.ok.injEq, exists_eq_left', lower_iff]
  constructor
  · rintro ⟨a, b, c, _⟩; exact ⟨a, b, c⟩
  · rintro ⟨a, b, c⟩; exact ⟨a, b, c, h2⟩

/-- C137: `AddressDecode` for Chia returns the empty payload and no error for exactly these texts: a prefix of printable characters and alphabet symbols with a
correct checksum of either kind, where the prefix is not Chia's, or the checksum is the older one, or there is no payload. -/
theorem C137_empty (H : Hashes) (t : Bytes) :
    addressDecode H t XCH_mainnetAddress = .ok [] ↔
      t.length ≤ 90 ∧ OneCase t ∧ ∃ pre d vs, List.Forall₂ SameLetter t (pre ++ 0x31 :: d) ∧ pre ≠ [] ∧ (∀ c ∈ pre, 33 ≤ c.toNat ∧ c.toNat ≤ 126 ∧ ¬ Capital c) ∧
        List.Forall₂ (fun c v => alphabet[v]? = some c) d vs ∧ 6 ≤ vs.length ∧
        (remainder bech32Gen (1 :: (hrpSymbols pre ++ vs)) = [0, 0, 0, 0, 0, 1] ∨
          (remainder bech32Gen (1 :: (hrpSymbols pre ++ vs)) = bech32mTarget ∧ (pre ≠ asc "xch" ∨ vs.length = 6))) := by
  have hd : addressDecode H t XCH_mainnetAddress = .ok [] ↔ ∃ pre data spec, decode t Bech32.stdAlphabet = .ok (pre, data, spec) ∧
      (spec = .bech32 ∨ (spec = .bech32m ∧ (pre ≠ asc "xch" ∨ convertbits data 5 8 false = .ok []))) := by
    rw [(xch_unfold H t []).2]
    unfold bech32mDecode
    cases h : decode t Bech32.stdAlphabet with
    | err => simp
    | panic => simp
    | ok r =>
      obtain ⟨pre, data, spec⟩ := r
      simp only [Res.bind_ok, Res.ok.injEq, Prod.mk.injEq]
      constructor
      · intro h'
        refine ⟨pre, data, spec, ⟨rfl, rfl, rfl⟩, ?_⟩
        cases spec with
        | bech32 => exact Or.inl rfl
        | bech32m =>
          refine Or.inr ⟨rfl, ?_⟩
          by_cases hp : pre = asc "xch"
          · right
            rw [if_neg (by simp [hp])] at h'
            cases hcv : convertbits data 5 8 false with
            | err => rw [hcv] at h'; simp at h'
            | panic => rw [hcv] at h'; simp at h'
            | ok b =>
              rw [hcv] at h'
              simpa using h'
          · exact Or.inl hp
      · rintro ⟨pre', data', spec', ⟨rfl, rfl, rfl⟩, h1 | ⟨h1, h2 | h2⟩⟩
        · rw [if_pos (Or.inr (by rw [h1]; decide))]
        · rw [if_pos (Or.inl h2)]
        · by_cases hp : pre = asc "xch"
          · rw [if_neg (by simp [hp, h1]), h2]
            rfl
          · rw [if_pos (Or.inl hp)]
  rw [hd]
  constructor
  · rintro ⟨pre, data, spec, h1, h2⟩
    obtain ⟨a1, a2, d, vs, a3, a4, a5, a6, a7, a8, rfl⟩ := (decode_iff _ _ _ _).mp h1
    obtain ⟨l1, l2⟩ := (lower_iff _ _).mp a3
    have hv := std_lt a6
    refine ⟨a1, a2, pre, d, vs, l1, a4, fun c hc => ⟨(a5 c hc).1, (a5 c hc).2, l2 c (by simp [hc])⟩, a6, a7, ?_⟩
    obtain ⟨r1, r2⟩ := C64_bech32m_is_bip350 pre vs hv
    rcases h2 with rfl | ⟨rfl, h2⟩
    · exact Or.inl (r1.mp a8)
    · refine Or.inr ⟨r2.mp a8, h2.imp id ?_⟩
      intro h3
      have := (conv58_inv (fun v hm => hv v (List.mem_of_mem_take hm)) h3).2
      have e : convertbits [] 8 5 true = .ok [] := by decide
      rw [e, Res.ok.injEq] at this
      have := congrArg List.length this
      simp only [List.length_nil, List.length_take] at this
      omega
  · rintro ⟨a1, a2, pre, d, vs, l1, a4, a5, a6, a7, h⟩
    have a3 : t.map toLower = pre ++ 0x31 :: d := by
      refine (lower_iff _ _).mpr ⟨l1, ?_⟩
      intro c hc
      rcases List.mem_append.mp hc with hc | hc
      · exact (a5 c hc).2.2
      · rcases List.mem_cons.mp hc with rfl | hc
        · decide
        · exact std_small a6 c hc
    have hv := std_lt a6
    obtain ⟨r1, r2⟩ := C64_bech32m_is_bip350 pre vs hv
    rcases h with h | ⟨h, h'⟩
    · exact ⟨pre, _, .bech32, (decode_iff _ _ _ _).mpr ⟨a1, a2, d, vs, a3, a4, fun c hc => ⟨(a5 c hc).1, (a5 c hc).2.1⟩, a6, a7, r1.mpr h, rfl⟩, Or.inl rfl⟩
    · refine ⟨pre, _, .bech32m, (decode_iff _ _ _ _).mpr ⟨a1, a2, d, vs, a3, a4, fun c hc => ⟨(a5 c hc).1, (a5 c hc).2.1⟩, a6, a7, r2.mpr h, rfl⟩,
        Or.inr ⟨rfl, h'.imp id ?_⟩⟩
      intro h6
      rw [h6, Nat.sub_self, List.take_zero]
      decide

/-- C137 fails: every text written for another prefix is accepted with an empty payload instead of an error. -/
theorem C137_foreign_violated (H : Hashes) (hrp p : Bytes) (hne : hrp ≠ []) (hh : ∀ c ∈ hrp, 33 ≤ c ∧ c ≤ 126 ∧ ¬ (0x41 ≤ c ∧ c ≤ 0x5a)) (hx : hrp ≠ asc "xch")
    (hl : hrp.length + 1 + (8 * p.length + 4) / 5 + 6 ≤ 90) :
    ∃ t, addressEncode H p { XCH_mainnetAddress with checksumType := hrp } = .ok t ∧ addressDecode H t XCH_mainnetAddress = .ok [] := by
  have hi : IsHrp hrp := ⟨hne, fun c hc => ⟨(hh c hc).1, (hh c hc).2.1, by simp [toLower, (hh c hc).2.2]⟩⟩
  obtain ⟨c, c1, c2, c3, c4⟩ := conv85 (p.map UInt8.toNat) (bytes_lt p)
  simp only [List.length_map] at c2
  obtain ⟨t, t1, t2, t3⟩ := decode_encode hrp hi c c3 .bech32m (by omega)
  refine ⟨t, ?_, ?_⟩
  · have e : addressEncode H p { XCH_mainnetAddress with checksumType := hrp } = (match bech32mEncode hrp p Bech32.stdAlphabet with
      | .ok t => .ok t
      | .err => .ok []
      | .panic => .panic) := rfl
    rw [e]
    unfold bech32mEncode
    rw [c1, Res.bind_ok, t1]
  · rw [(xch_unfold H t []).2]
    unfold bech32mDecode
    rw [t3, Res.bind_ok]
    simp only
    rw [if_pos (Or.inl hx)]

/-- C09, Chia: if a text is accepted with a payload, no text that differs from it in one character, whichever and wherever it is, is accepted with a
payload. -/
theorem C09_bech32m_text_single_error (H : Hashes) (a b : Bytes) (c c' : UInt8) (hne : c ≠ c') (p : Bytes) (hp : p ≠ [])
    (h : addressDecode H (a ++ c :: b) XCH_mainnetAddress = .ok p) :
    ∀ q, q ≠ [] → addressDecode H (a ++ c' :: b) XCH_mainnetAddress ≠ .ok q := by
  intro q hq h'
  have key : ∀ t p, p ≠ [] → addressDecode H t XCH_mainnetAddress = .ok p → OneCase t ∧ ∃ d vs, t.map toLower = asc "xch1" ++ d ∧
      List.Forall₂ (fun c v => alphabet[v]? = some c) d vs ∧ verifyChecksum (asc "xch") vs = some .bech32m := by
    intro t p hp h
    rw [(xch_unfold H t p).2] at h
    split at h
    · rename_i b hb
      obtain ⟨⟨pre, data, spec⟩, h1, h0⟩ := Res.bind_eq_ok.mp hb
      simp only at h0
      by_cases hc : pre ≠ asc "xch" ∨ spec ≠ .bech32m
      · rw [if_pos hc] at h0; simp at h0
      simp only [ne_eq, not_or, not_not] at hc
      obtain ⟨rfl, rfl⟩ := hc
      obtain ⟨_, a2, d, vs, a3, _, _, a6, _, a8, _⟩ := (decode_iff _ _ _ _).mp h1
      exact ⟨a2, d, vs, a3, a6, a8⟩
    · cases h; exact absurd rfl hp
    · cases h
    · cases h
  obtain ⟨o1, d1, v1, e1, f1, k1⟩ := key _ _ hp h
  obtain ⟨o2, d2, v2, e2, f2, k2⟩ := key _ _ hq h'
  rw [List.map_append, List.map_cons] at e1 e2
  by_cases hL : toLower c = toLower c'
  · -- the two characters are the same letter in different case: then there is no other letter in the text
    have hletter : ∃ y, (y ∈ a ∨ y ∈ b) ∧ (Small y ∨ Capital y) := by
      have kx : ∀ y : UInt8, toLower y = 0x78 ∨ toLower y = 0x63 → Small y ∨ Capital y := by apply Hex.u8_forall; decide +kernel
      cases a with
      | nil =>
        cases b with
        | nil =>
          have := congrArg List.length e1
          simp [asc] at this
        | cons y b =>
          have hx : asc "xch1" = [0x78, 0x63, 0x68, 0x31] := by decide
          rw [hx] at e1
          simp only [List.map_nil, List.nil_append, List.map_cons, List.cons_append, List.cons.injEq] at e1
          exact ⟨y, Or.inr (by simp), kx y (Or.inr e1.2.1)⟩
      | cons y a =>
        have hx : asc "xch1" = [0x78, 0x63, 0x68, 0x31] := by decide
        rw [hx] at e1
        simp only [List.map_cons, List.cons_append, List.cons.injEq] at e1
        exact ⟨y, Or.inl (by simp), kx y (Or.inl e1.1)⟩
    obtain ⟨y, hy, hyl⟩ := hletter
    have kc : (Capital c ∧ Small c') ∨ (Capital c' ∧ Small c) := by
      have k0 : ∀ x : UInt8, (Capital x ∧ toLower x = x + 32 ∧ Small (x + 32)) ∨ (¬ Capital x ∧ toLower x = x) := by apply Hex.u8_forall; decide +kernel
      rcases k0 c with ⟨q1, q2, q3⟩ | ⟨q1, q2⟩ <;> rcases k0 c' with ⟨r1, r2, r3⟩ | ⟨r1, r2⟩
      · rw [q2, r2] at hL
        exact absurd (by simpa using hL) hne
      · rw [q2, r2] at hL
        exact Or.inl ⟨q1, hL ▸ q3⟩
      · rw [q2, r2] at hL
        exact Or.inr ⟨r1, hL ▸ r3⟩
      · rw [q2, r2] at hL
        exact absurd hL hne
    have y1 : y ∈ a ++ c :: b := by rcases hy with h | h <;> simp [h]
    have y2 : y ∈ a ++ c' :: b := by rcases hy with h | h <;> simp [h]
    have c1 : c ∈ a ++ c :: b := by simp
    have c2 : c' ∈ a ++ c' :: b := by simp
    have no : ∀ {t : Bytes} {x y : UInt8}, OneCase t → x ∈ t → y ∈ t → Capital x → Small y → False := by
      rintro t x y (ho | ho) hx hy h1 h2
      · exact ho y hy h2
      · exact ho x hx h1
    rcases kc with ⟨g1, g2⟩ | ⟨g1, g2⟩ <;> rcases hyl with hyl | hyl
    · exact no o1 c1 y1 g1 hyl
    · exact no o2 y2 c2 hyl g2
    · exact no o2 c2 y2 g1 hyl
    · exact no o1 y1 c1 hyl g2
  · by_cases hlen : a.length < 4
    · have g1 := congrArg (fun l => l[a.length]?) e1
      have g2 := congrArg (fun l => l[a.length]?) e2
      rw [List.getElem?_append_left (l₁ := asc "xch1") (by simpa [asc] using hlen)] at g1 g2
      rw [List.getElem?_append_right (by simp)] at g1 g2
      simp only [List.length_map, Nat.sub_self, List.getElem?_cons_zero] at g1 g2
      exact hL (Option.some.inj (g1.trans g2.symm))
    · obtain ⟨da, hda⟩ : asc "xch1" <+: a.map toLower := by
        refine List.prefix_of_prefix_length_le (l₃ := a.map toLower ++ toLower c :: b.map toLower) ⟨d1, e1.symm⟩ (List.prefix_append _ _) ?_
        simp only [List.length_map]
        have : (asc "xch1").length = 4 := by decide
        omega
      rw [← hda, List.append_assoc] at e1 e2
      have e1' := List.append_cancel_left e1
      have e2' := List.append_cancel_left e2
      rw [← e1', ← revAll_std] at f1
      rw [← e2', ← revAll_std] at f2
      have split : ∀ (x : UInt8) (y : Bytes) (l : Bytes) (v : List Nat), revAll Bech32.stdAlphabet (l ++ x :: y) = some v →
          ∃ vl w vy, revAll Bech32.stdAlphabet l = some vl ∧ alphabet[w]? = some x ∧ revAll Bech32.stdAlphabet y = some vy ∧ v = vl ++ w :: vy := by
        intro x y l
        simp only [revAll_std]
        induction l with
        | nil =>
          intro v hv
          cases hv with
          | @cons _ w _ vy h1 h2 => exact ⟨[], w, vy, .nil, h1, h2, rfl⟩
        | cons z l ih =>
          intro v hv
          cases hv with
          | @cons _ w _ vy h1 h2 =>
            obtain ⟨vl, w', vy', i1, i2, i3, rfl⟩ := ih _ h2
            exact ⟨w :: vl, w', vy', .cons h1 i1, i2, i3, rfl⟩
      obtain ⟨va, w, vb, s1, s2, s3, rfl⟩ := split _ _ _ _ f1
      obtain ⟨va', w', vb', s1', s2', s3', rfl⟩ := split _ _ _ _ f2
      rw [s1, Option.some.injEq] at s1'
      rw [s3, Option.some.injEq] at s3'
      subst s1' s3'
      have hw : w ≠ w' := by
        rintro rfl
        rw [s2, Option.some.injEq] at s2'
        exact hL s2'
      have hl : alphabet.length = 32 := by decide +kernel
      exact verify_single _ _ _ w w' (hl ▸ (List.getElem?_eq_some_iff.mp s2).1) (hl ▸ (List.getElem?_eq_some_iff.mp s2').1) hw _ k1 k2

example : addressDecode toyHashes (asc "xch1qyp07ferw55") XCH_mainnetAddress = .ok [1, 2, 255] ∧
    addressDecode toyHashes (asc "XCH1QYP07FERW55") XCH_mainnetAddress = .ok [1, 2, 255] ∧
    addressDecode toyHashes (asc "xch1qyp07feRw55") XCH_mainnetAddress = .err := by decide +kernel
example : (asc "txch").length + 1 + (8 * 32 + 4) / 5 + 6 ≤ 90 ∧ ∀ c ∈ asc "txch", 33 ≤ c ∧ c ≤ 126 ∧ ¬ (0x41 ≤ c ∧ c ≤ 0x5a) := by decide +kernel

end Verif
