import Verif.Lemmas.AddrBase64
import Verif.Spec.Base64
import Verif.Model.Base64

/-!
C118: the package's base64 codec. `Decode` reads exactly the base64 texts over the alphabet, ignoring line breaks; but `Encode`,
`Base64Encode` and `Base64Decode` panic, because the constructor does not store the alphabet.
-/

namespace Verif
open AddrBase64 Spec

namespace AddrBase64

theorem fillMap_not_mem {c : UInt8} : ∀ (l : Bytes) (i : Nat) (m : UInt8 → UInt8), c ∉ l → fillMap l i m c = m c := by
  intro l
  induction l with
  | nil => intro i m _; rfl
  | cons x l ih =>
    intro i m h
    simp only [List.mem_cons, not_or] at h
    rw [fillMap, ih _ _ h.2, if_neg h.1]

theorem fillMap_mem {c : UInt8} : ∀ (l : Bytes) (i : Nat) (m : UInt8 → UInt8) (k : Nat), l.Nodup → l[k]? = some c →
    fillMap l i m c = UInt8.ofNat (i + k) := by
  intro l
  induction l with
  | nil => intro i m k _ h; simp at h
  | cons x l ih =>
    intro i m k hn h
    rw [List.nodup_cons] at hn
    rcases k with _ | k
    · simp at h
      subst h
      rw [fillMap, fillMap_not_mem _ _ _ hn.1, if_pos rfl, Nat.add_zero]
    · simp at h
      rw [fillMap, ih _ _ k hn.2 h]
      congr 1; omega

/-- The table of an encoding made from an alphabet. -/
def tableOf (alph : Bytes) : UInt8 → UInt8 := fillMap alph 0 (fun _ => 0xff)

theorem tableOf_iff {alph : Bytes} (ha : IsAlphabet64 alph) (c : UInt8) (v : Nat) :
    alph[v]? = some c ↔ tableOf alph c ≠ 0xff ∧ (tableOf alph c).toNat = v := by
  obtain ⟨hl, hn, _⟩ := ha
  constructor
  · intro h
    have hv : v < 64 := by have := (List.getElem?_eq_some_iff.mp h).1; omega
    have ht : tableOf alph c = UInt8.ofNat v := by rw [tableOf, fillMap_mem _ _ _ v hn h, Nat.zero_add]
    have hv' : (tableOf alph c).toNat = v := by rw [ht, UInt8.toNat_ofNat']; omega
    refine ⟨?_, hv'⟩
    intro h'
    rw [h'] at hv'
    have : (0xff : UInt8).toNat = 255 := rfl
    omega
  · rintro ⟨h1, h2⟩
    by_cases hc : c ∈ alph
    · obtain ⟨k, hk⟩ := List.getElem?_of_mem hc
      have hk' : k < 64 := by have := (List.getElem?_eq_some_iff.mp hk).1; omega
      have ht : tableOf alph c = UInt8.ofNat k := by rw [tableOf, fillMap_mem _ _ _ k hn hk, Nat.zero_add]
      have : k = v := by rw [← h2, ht, UInt8.toNat_ofNat']; omega
      rw [← this]; exact hk
    · exact absurd (fillMap_not_mem _ _ _ hc) h1

theorem table_of_alphabet {alph : Bytes} (ha : IsAlphabet64 alph) : Table (tableOf alph) where
  pad := fillMap_not_mem _ _ _ ha.2.2.1
  lf := fillMap_not_mem _ _ _ ha.2.2.2.1
  cr := fillMap_not_mem _ _ _ ha.2.2.2.2
  small := by
    intro c hc
    have := (tableOf_iff ha c (tableOf alph c).toNat).mpr ⟨hc, rfl⟩
    have := (List.getElem?_eq_some_iff.mp this).1
    have := ha.1
    omega

theorem newEncoding_ok {alph : Bytes} (ha : IsAlphabet64 alph) : newEncoding alph = .ok ⟨[], tableOf alph⟩ := by
  obtain ⟨hl, _, _, h1, h2⟩ := ha
  unfold newEncoding
  rw [if_neg (by simpa using hl), if_neg]
  · simp [copy, tableOf]
  · simp only [List.any_eq_true, decide_eq_true_eq, not_exists, not_and, not_or]
    intro x hx
    exact ⟨fun h => h1 (h ▸ hx), fun h => h2 (h ▸ hx)⟩

theorem ofNat3 (v : Nat) : beBytes 3 v = [UInt8.ofNat (v / 256 / 256), UInt8.ofNat (v / 256), UInt8.ofNat v] := rfl

theorem dec_iff {alph : Bytes} (ha : IsAlphabet64 alph) : ∀ (t b : Bytes), dec (tableOf alph) t = some b ↔ Base64Reads alph t b := by
  intro t
  have hm := table_of_alphabet ha
  have hpad : ∀ (v : Nat), alph[v]? ≠ some 0x3d := fun v h => ((tableOf_iff ha _ v).mp h).1 hm.pad
  fun_induction dec (tableOf alph) t with
  | case1 a b c d t hab =>
    intro bs
    simp only [reduceCtorEq, false_iff]
    intro h
    cases h with
    | one _ _ x va vb r h1 h2 => exact hab.elim ((tableOf_iff ha _ _).mp h1).1 ((tableOf_iff ha _ _).mp h2).1
    | two _ _ _ x y va vb vc r h1 h2 h3 => exact hab.elim ((tableOf_iff ha _ _).mp h1).1 ((tableOf_iff ha _ _).mp h2).1
    | three _ _ _ _ x y z va vb vc vd _ s h1 h2 => exact hab.elim ((tableOf_iff ha _ _).mp h1).1 ((tableOf_iff ha _ _).mp h2).1
  | case2 a b c d t hab hc hp =>
    intro bs
    obtain ⟨rfl, rfl, rfl⟩ := hp
    rw [not_or] at hab
    have h1 := (tableOf_iff ha a _).mpr ⟨hab.1, rfl⟩
    have h2 := (tableOf_iff ha b _).mpr ⟨hab.2, rfl⟩
    have s1 := hm.small a hab.1
    have s2 := hm.small b hab.2
    rw [ofNat3]
    simp only [List.take, Option.some.injEq]
    constructor
    · rintro rfl
      refine .one a b _ _ _ ((tableOf alph b).toNat % 16) h1 h2 (by omega) ?_
      rw [UInt8.toNat_ofNat']
      simp only [val4]
      omega
    · intro h
      cases h with
      | one _ _ x va vb r g1 g2 hr he =>
        obtain ⟨_, rfl⟩ := (tableOf_iff ha _ _).mp g1
        obtain ⟨_, rfl⟩ := (tableOf_iff ha _ _).mp g2
        congr 1
        apply UInt8.toNat_inj.mp
        rw [UInt8.toNat_ofNat']
        simp only [val4]
        omega
      | two _ _ _ x y va vb vc r g1 g2 g3 => exact absurd g3 (hpad _)
      | three _ _ _ _ x y z va vb vc vd _ s g1 g2 g3 => exact absurd g3 (hpad _)
  | case3 a b c d t hab hc hp =>
    intro bs
    simp only [reduceCtorEq, false_iff]
    intro h
    cases h with
    | one _ _ x va vb r h1 h2 => exact hp ⟨rfl, rfl, rfl⟩
    | two _ _ _ x y va vb vc r h1 h2 h3 => exact ((tableOf_iff ha _ _).mp h3).1 hc
    | three _ _ _ _ x y z va vb vc vd _ s h1 h2 h3 => exact ((tableOf_iff ha _ _).mp h3).1 hc
  | case4 a b c d t hab hc hd hp =>
    intro bs
    obtain ⟨rfl, rfl⟩ := hp
    rw [not_or] at hab
    have h1 := (tableOf_iff ha a _).mpr ⟨hab.1, rfl⟩
    have h2 := (tableOf_iff ha b _).mpr ⟨hab.2, rfl⟩
    have h3 := (tableOf_iff ha c _).mpr ⟨hc, rfl⟩
    have s1 := hm.small a hab.1
    have s2 := hm.small b hab.2
    have s3 := hm.small c hc
    rw [ofNat3]
    simp only [List.take, Option.some.injEq]
    constructor
    · rintro rfl
      refine .two a b c _ _ _ _ _ ((tableOf alph c).toNat % 4) h1 h2 h3 (by omega) ?_
      rw [UInt8.toNat_ofNat', UInt8.toNat_ofNat']
      simp only [val4]
      omega
    · intro h
      cases h with
      | one _ _ x va vb r g1 g2 hr he => exact absurd hm.pad hc
      | two _ _ _ x y va vb vc r g1 g2 g3 hr he =>
        obtain ⟨_, rfl⟩ := (tableOf_iff ha _ _).mp g1
        obtain ⟨_, rfl⟩ := (tableOf_iff ha _ _).mp g2
        obtain ⟨_, rfl⟩ := (tableOf_iff ha _ _).mp g3
        have l1 := x.toNat_lt
        have l2 := y.toNat_lt
        congr 1
        · apply UInt8.toNat_inj.mp
          rw [UInt8.toNat_ofNat']
          simp only [val4]
          omega
        · congr 1
          apply UInt8.toNat_inj.mp
          rw [UInt8.toNat_ofNat']
          simp only [val4]
          omega
      | three _ _ _ _ x y z va vb vc vd _ s g1 g2 g3 g4 => exact absurd g4 (hpad _)
  | case5 a b c d t hab hc hd hp =>
    intro bs
    simp only [reduceCtorEq, false_iff]
    intro h
    cases h with
    | one _ _ x va vb r h1 h2 => exact hc hm.pad
    | two _ _ _ x y va vb vc r h1 h2 h3 => exact hp ⟨rfl, rfl⟩
    | three _ _ _ _ x y z va vb vc vd _ s h1 h2 h3 h4 => exact ((tableOf_iff ha _ _).mp h4).1 hd
  | case6 a b c d t hab hc hd ih =>
    intro bs
    rw [not_or] at hab
    have h1 := (tableOf_iff ha a _).mpr ⟨hab.1, rfl⟩
    have h2 := (tableOf_iff ha b _).mpr ⟨hab.2, rfl⟩
    have h3 := (tableOf_iff ha c _).mpr ⟨hc, rfl⟩
    have h4 := (tableOf_iff ha d _).mpr ⟨hd, rfl⟩
    have s1 := hm.small a hab.1
    have s2 := hm.small b hab.2
    have s3 := hm.small c hc
    have s4 := hm.small d hd
    rw [ofNat3]
    simp only [Option.map_eq_some_iff, List.cons_append, List.nil_append]
    constructor
    · rintro ⟨s, hs, rfl⟩
      refine .three a b c d _ _ _ _ _ _ _ t s h1 h2 h3 h4 ?_ ((ih s).mp hs)
      rw [UInt8.toNat_ofNat', UInt8.toNat_ofNat', UInt8.toNat_ofNat']
      simp only [val4]
      omega
    · intro h
      cases h with
      | one _ _ x va vb r g1 g2 hr he => exact absurd hm.pad hc
      | two _ _ _ x y va vb vc r g1 g2 g3 hr he => exact absurd hm.pad hd
      | three _ _ _ _ x y z va vb vc vd _ s g1 g2 g3 g4 he hs =>
        obtain ⟨_, rfl⟩ := (tableOf_iff ha _ _).mp g1
        obtain ⟨_, rfl⟩ := (tableOf_iff ha _ _).mp g2
        obtain ⟨_, rfl⟩ := (tableOf_iff ha _ _).mp g3
        obtain ⟨_, rfl⟩ := (tableOf_iff ha _ _).mp g4
        have l1 := x.toNat_lt
        have l2 := y.toNat_lt
        have l3 := z.toNat_lt
        refine ⟨s, (ih s).mpr hs, ?_⟩
        congr 1
        · apply UInt8.toNat_inj.mp
          rw [UInt8.toNat_ofNat']
          simp only [val4]
          omega
        · congr 1
          · apply UInt8.toNat_inj.mp
            rw [UInt8.toNat_ofNat']
            simp only [val4]
            omega
          · congr 1
            apply UInt8.toNat_inj.mp
            rw [UInt8.toNat_ofNat']
            simp only [val4]
            omega
  | case7 =>
    intro bs
    constructor
    · intro h; cases h; exact .nil
    · intro h; cases h; rfl
  | case8 => intro bs; simp only [reduceCtorEq, false_iff]; intro h; cases h
  | case9 => intro bs; simp only [reduceCtorEq, false_iff]; intro h; cases h
  | case10 => intro bs; simp only [reduceCtorEq, false_iff]; intro h; cases h

end AddrBase64

/-- For every proper alphabet, every text and every buffer at least as long as `DecodedLen` says, `Decode` returns without a panic, and
its outcome is exactly this: a nil error with the bytes `b` at the start of the buffer iff the text, line breaks left out, is a base64 text of `b`
(left-over bits are not checked). Missing for C118: `Encode`, `Base64Encode` and `Base64Decode`, which panic. -/
theorem C118_decode_partial (alph : Bytes) (ha : IsAlphabet64 alph) (dst src : Bytes) (hroom : decodedLen src.length ≤ dst.length) :
    ∃ e o, newEncoding alph = .ok e ∧ decode e dst src = .ok o ∧
      ∀ b : Bytes, (o.err = none ∧ o.dst.take o.n = b) ↔ Base64Reads alph (noBreaks src) b := by
  have hm := table_of_alphabet ha
  have hr : 3 * ((noBreaks src).length / 4) ≤ dst.length := by
    have := noBreaks_length src
    unfold decodedLen at hroom
    have := Nat.div_le_div_right (c := 4) this
    omega
  obtain ⟨o, ho, hg⟩ := decode_good ⟨[], tableOf alph⟩ hm dst src hr
  refine ⟨_, o, newEncoding_ok ha, ho, ?_⟩
  intro b
  rw [← dec_iff ha]
  simp only at hg
  rcases hd : dec (tableOf alph) (noBreaks src) with _ | b'
  · rw [hd] at hg
    simp only [reduceCtorEq, iff_false, not_and]
    intro h
    exact absurd h hg
  · rw [hd] at hg
    obtain ⟨h1, h2, h3⟩ := hg
    rw [List.take_zero, List.nil_append] at h3
    simp only [h1, h3, Option.some.injEq, true_and]

/-- A buffer that is too short for a quantum makes `Decode` panic, also when the decoded bytes would fit: the bound of `C118_decode_partial` is needed. -/
theorem C118_limit_short_buffer (alph : Bytes) (ha : IsAlphabet64 alph) (a b x : UInt8) (h : Base64Reads alph [a, b, 0x3d, 0x3d] [x])
    (dst : Bytes) (hd : dst.length < 3) : ∃ e, newEncoding alph = .ok e ∧ decode e dst [a, b, 0x3d, 0x3d] = .panic := by
  have hm := table_of_alphabet ha
  refine ⟨_, newEncoding_ok ha, ?_⟩
  cases h with
  | one _ _ _ va vb r g1 g2 =>
    obtain ⟨d1, _⟩ := (tableOf_iff ha _ _).mp g1
    obtain ⟨d2, _⟩ := (tableOf_iff ha _ _).mp g2
    have hq : quantum ⟨[], tableOf alph⟩ 4 [a, b, 0x3d, 0x3d] [] = .conv [] [(tableOf alph a).toNat, (tableOf alph b).toNat] none := by
      simp [quantum, d1, d2, hm.pad, skipNl, padded]
    have hdq : decodeQuantum ⟨[], tableOf alph⟩ 4 dst 0 [a, b, 0x3d, 0x3d] = .panic := by
      unfold decodeQuantum
      rw [hq]
      simp only
      rw [if_pos (by omega)]
    show decode _ _ _ = _
    unfold decode
    rw [if_neg (by simp)]
    unfold loop1
    rw [if_neg (by simp)]
    unfold loop2
    rw [if_neg (by omega)]
    unfold loop3
    rw [if_neg (by simp)]
    show Res.bind (decodeQuantum ⟨[], tableOf alph⟩ 4 dst 0 [a, b, 0x3d, 0x3d]) _ = _
    rw [hdq]
    rfl

/-- Full statement of C118 (encoding): `Base64Encode` returns the base64 text of its input. False for every alphabet and every non-empty input:
the constructor copies the alphabet into a nil slice, so that the first table lookup panics; `Encode` does so with every buffer. -/
theorem C118_encode_violated (alph : Bytes) (e : Encoding) (he : newEncoding alph = .ok e) (src : Bytes) (hs : src ≠ []) :
    base64Encode e src = .panic ∧ ∀ dst : Bytes, encodeFrom e dst src 0 = .panic := by
  have hnil : e.encode = [] := by
    unfold newEncoding at he
    split at he
    · cases he
    · split at he
      · cases he
      · cases he
        simp [copy]
  have hsym : ∀ (dst : Bytes) (i v : Nat), storeSym e dst i v = .panic := by
    intro dst i v
    unfold storeSym
    rw [hnil]
    rfl
  have hall : ∀ dst : Bytes, encodeFrom e dst src 0 = .panic := by
    intro dst
    match src, hs with
    | [x], _ => rw [encodeFrom]; simp only [hsym]; rfl
    | [x, y], _ => rw [encodeFrom]; simp only [hsym]; rfl
    | x :: y :: z :: r, _ => rw [encodeFrom]; simp only [hsym]; rfl
  exact ⟨hall _, hall⟩

/-- Full statement of C118 (decoding a string): `Base64Decode` returns the bytes a base64 text stands for. False for every alphabet and
every text, the empty one included: it builds a new encoding from the alphabet the constructor did not store, and that panics. -/
theorem C118_string_violated (alph : Bytes) (e : Encoding) (he : newEncoding alph = .ok e) (s : Bytes) : base64Decode e s = .panic := by
  have hnil : e.encode = [] := by
    unfold newEncoding at he
    split at he
    · cases he
    · split at he
      · cases he
      · cases he
        simp [copy]
  unfold base64Decode
  rw [hnil]
  rfl

/-- The constructor accepts exactly the texts of 64 bytes without line breaks. -/
theorem C118_constructor (alph : Bytes) :
    (∃ e, newEncoding alph = .ok e) ↔ alph.length = 64 ∧ (0x0a : UInt8) ∉ alph ∧ (0x0d : UInt8) ∉ alph := by
  unfold newEncoding
  by_cases hl : alph.length = 64
  · rw [if_neg (by simpa using hl)]
    by_cases hb : alph.any (fun c => c = 0x0a ∨ c = 0x0d)
    · rw [if_pos hb]
      simp only [List.any_eq_true, decide_eq_true_eq] at hb
      obtain ⟨x, hx, h⟩ := hb
      constructor
      · rintro ⟨_, h⟩; cases h
      · rintro ⟨_, h1, h2⟩
        rcases h with rfl | rfl
        · exact absurd hx h1
        · exact absurd hx h2
    · rw [if_neg hb]
      simp only [List.any_eq_true, decide_eq_true_eq, not_exists, not_and, not_or] at hb
      exact ⟨fun _ => ⟨hl, fun h => (hb _ h).1 rfl, fun h => (hb _ h).2 rfl⟩, fun _ => ⟨_, rfl⟩⟩
  · rw [if_pos hl]
    constructor
    · rintro ⟨_, h⟩; cases h
    · intro h; exact absurd h.1 hl

theorem std_isAlphabet : IsAlphabet64 Base64.alphabet := by
  refine ⟨by decide +kernel, by decide +kernel, by decide +kernel, by decide +kernel, by decide +kernel⟩

/-- The text of a standard encoder, with any line breaks in it, reads back: the padding bits are zero there. -/
theorem C118_reads_standard_partial (dst src b : Bytes) (h : noBreaks src = Base64.encode b) (hroom : decodedLen src.length ≤ dst.length) :
    ∃ e o, newEncoding Base64.alphabet = .ok e ∧ decode e dst src = .ok o ∧ o.err = none ∧ o.dst.take o.n = b := by
  obtain ⟨e, o, he, ho, hiff⟩ := C118_decode_partial Base64.alphabet std_isAlphabet dst src hroom
  have hsym : ∀ v : Nat, Base64.alphabet[v % 64]? = some (Base64.sym v) := by
    intro v
    unfold Base64.sym
    have hl : Base64.alphabet.length = 64 := std_isAlphabet.1
    rw [List.getD_eq_getElem?_getD, List.getElem?_eq_getElem (by omega)]
    rfl
  have hr : ∀ b : Bytes, Base64Reads Base64.alphabet (Base64.encode b) b := by
    intro b
    fun_induction Base64.encode b with
    | case1 x y z r val ih =>
      refine .three _ _ _ _ _ _ _ _ _ _ _ _ _ (hsym _) (hsym _) (hsym _) (hsym _) ?_ ih
      have l1 := x.toNat_lt
      have l2 := y.toNat_lt
      have l3 := z.toNat_lt
      simp only [val]
      omega
    | case2 x y val =>
      refine .two _ _ _ _ _ _ _ _ 0 (hsym _) (hsym _) (hsym _) (by omega) ?_
      have l1 := x.toNat_lt
      have l2 := y.toNat_lt
      simp only [val]
      omega
    | case3 x val =>
      refine .one _ _ _ _ _ 0 (hsym _) (hsym _) (by omega) ?_
      have l1 := x.toNat_lt
      simp only [val]
      omega
    | case4 => exact .nil
  refine ⟨e, o, he, ho, (hiff b).mpr ?_⟩
  rw [h]
  exact hr b

/-- "SGVs\nbG8=" reads as "Hello", and the texts with garbage behind the padding or a missing padding sign are refused. -/
example : (do let e ← newEncoding Base64.alphabet; decode e (List.replicate 6 7) (asc "SGVs\nbG8="))
      = .ok ⟨5, none, [0x48, 0x65, 0x6c, 0x6c, 0x6f, 7]⟩ ∧
    (do let e ← newEncoding Base64.alphabet; decode e (List.replicate 6 0) (asc "SGVsbG8=A")) = .ok ⟨5, some 8, [0x48, 0x65, 0x6c, 0x6c, 0x6f, 0]⟩ ∧
    (do let e ← newEncoding Base64.alphabet; decode e (List.replicate 6 0) (asc "SGVsbG8")) = .ok ⟨3, some 4, [0x48, 0x65, 0x6c, 0, 0, 0]⟩ := by
  decide +kernel

example : (∃ e, newEncoding Base64.alphabet = .ok e) := (C118_constructor _).mpr (by decide +kernel)

example : decodedLen (asc "SGVs\nbG8=").length ≤ 6 ∧ noBreaks (asc "SGVs\nbG8=") = Base64.encode (asc "Hello") := by decide +kernel

/-- `EncodedLen` is the length of every base64 text of so many bytes, and `DecodedLen` is enough for the bytes of a text of so many characters; it is too much by
the number of padding characters only. -/
theorem C118_lengths (alph t b : Bytes) (h : Base64Reads alph t b) :
    t.length = encodedLen b.length ∧ b.length ≤ decodedLen t.length ∧ decodedLen t.length ≤ b.length + 2 := by
  have : t.length = (b.length + 2) / 3 * 4 := by
    induction h with
    | nil => rfl
    | one => simp
    | two => simp
    | three _ _ _ _ _ _ _ _ _ _ _ _ _ _ _ _ _ _ _ ih => simp only [List.length_cons, ih]; omega
  unfold encodedLen decodedLen
  omega

example : Base64Reads Base64.alphabet (asc "SGk=") (asc "Hi") :=
  .two _ _ _ _ _ 18 6 36 0 (by decide) (by decide) (by decide) (by decide) (by decide)

end Verif
