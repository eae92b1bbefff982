import Verif.Lemmas.OwKeychain
import Verif.Spec.OwKeychain
import Verif.Lemmas.OwToy

/-! C14–C19 and C58–C60: extended keys, derivation, paths, owprv/owpub/owchain texts. -/

namespace Verif
open Verif.Spec Verif.OwKeychain

theorem OwKeychain.edLike_iff (ids : CurveIds) (c : UInt32) :
    edLike ids c = true ↔ c = ids.ed25519 ∨ c = ids.x25519 ∨ c = ids.curve25519Sha256 := by
  simp [edLike, or_assoc]

theorem OwKeychain.isBls_iff (ids : CurveIds) (c : UInt32) :
    isBls ids c = true ↔ c = ids.blsNul ∨ c = ids.blsAug := by
  simp [isBls, or_comm]

theorem OwKeychain.bls_not_ed (ids : CurveIds) (c : UInt32) (h : isBls ids c = true) : edLike ids c = false := by
  have hd := ids.distinct
  rw [isBls_iff] at h
  by_contra hc
  have := (edLike_iff ids c).mp (by simpa using hc)
  simp only [List.nodup_cons, List.mem_cons, List.not_mem_nil, or_false, not_or] at hd
  rcases h with rfl | rfl <;> rcases this with h | h | h <;> simp_all

theorem OwKeychain.prefix_isPrefixOf {p t : Bytes} (h : p <+: t) : p.isPrefixOf t = true := by
  rw [List.isPrefixOf_iff_prefix]; exact h

theorem OwKeychain.prefix_excl {p q t : Bytes} (h : p <+: t) (hl : p.length = q.length) (hn : p ≠ q) :
    q.isPrefixOf t = false := by
  by_contra hc
  have h2 : q <+: t := List.isPrefixOf_iff_prefix.mp (by simpa using hc)
  have := List.prefix_of_prefix_length_le h h2 (by omega)
  exact hn (this.eq_of_length hl)

set_option exponentiation.threshold 2000 in
/-- C14. Every extended key with well-formed fields serialises, the text starts with `owprv` or `owpub` according to
the privacy flag, and reading the text back yields the same key in every field. -/
theorem C14_owkey_roundtrip (E : Ext) (k : ExtendedKey) (wf : WellFormedKey E.ids k) :
    ∃ t, owEncode E k = .ok t ∧ (if k.isPrivate then asc "owprv" else asc "owpub") <+: t ∧ owDecode E t = .ok k := by
  obtain ⟨h1, h2, h3⟩ := wf
  have hf := owFields_eq E.ids k h1 h2
  set data := beBytes 4 k.curveType.toNat ++ [k.depth] ++ k.parentFP ++ beBytes 4 k.serializes.toNat ++
      k.chainCode ++ (if padded E.ids k.curveType k.isPrivate then [0] else []) ++ k.key with hdata
  have hlen : data.length = 45 + (if padded E.ids k.curveType k.isPrivate then 1 else 0) + k.key.length := by
    rw [hdata]; simp only [List.length_append, beBytes_length, h1, h2, List.length_singleton]
    split <;> simp
  by_cases hp : k.isPrivate = true
  · rw [hp] at hf h3
    simp only [if_true] at h3
    have hl : data.length + 4 = 82 := by rw [hlen]; simp [padded, hp, h3]
    obtain ⟨t, e1, e2⟩ := b58Check_roundtrip E.H data owprvPrefix
    have hpre := b58Check_prefix E.H data owprvPrefix t (asc "owprv") 82 113 531255867 hl (by decide) (by decide)
      (by decide +kernel) (by decide +kernel) (by decide) (by decide +kernel) e1
    refine ⟨t, ?_, by simpa [hp] using hpre, ?_⟩
    · unfold owEncode; rw [if_pos hp]; exact e1
    · unfold owDecode
      rw [if_neg (by simp [prefix_excl hpre (q := asc "owpub") (by decide) (by decide)]),
        if_pos (prefix_isPrefixOf hpre), e2]
      exact hf
  · have hp' : k.isPrivate = false := by simpa using hp
    rw [hp'] at hf h3
    simp only [Bool.false_eq_true, if_false, ← edLike_iff, ← isBls_iff] at h3
    by_cases hb : isBls E.ids k.curveType = true
    · have hed := bls_not_ed E.ids k.curveType hb
      have hl : data.length + 4 = 97 := by rw [hlen]; simp [padded, hp', hed, h3, hb]
      obtain ⟨t, e1, e2⟩ := b58Check_roundtrip E.H data owpubPrefixBLS
      have hpre := b58Check_prefix E.H data owpubPrefixBLS t (asc "owpub") 97 134 531256022 hl (by decide) (by decide)
        (by decide +kernel) (by decide +kernel) (by decide) (by decide +kernel) e1
      refine ⟨t, ?_, by simpa [hp'] using hpre, ?_⟩
      · unfold owEncode; rw [if_neg hp, if_pos hb]; exact e1
      · have hd : ∃ b, Base58.decode alphabet t = .ok (0x3e :: b) := by
          obtain ⟨t', c1, _, c2⟩ := C01_base58_roundtrip alphabet alphabet_ok
            (owpubPrefixBLS ++ data ++ (E.H.hash .doubleSha256 (owpubPrefixBLS ++ data)).take 4)
          have : t = t' := by
            unfold b58CheckEncode at e1; rw [c1] at e1; exact (Res.ok.inj e1).symm
          rw [this]; exact ⟨_, c2⟩
        obtain ⟨b, hd⟩ := hd
        have herr := b58CheckDecode_err E.H t _ owpubPrefix hd (by simp [owpubPrefix, cmpPrefix])
        unfold owDecode
        rw [if_pos (prefix_isPrefixOf hpre), herr, e2]
        exact hf
    · have hl : data.length + 4 = 82 := by
        rw [hlen]
        by_cases hed : edLike E.ids k.curveType = true
        · simp [padded, hp', hed, h3]
        · simp [padded, hp', hed, h3, hb]
      obtain ⟨t, e1, e2⟩ := b58Check_roundtrip E.H data owpubPrefix
      have hpre := b58Check_prefix E.H data owpubPrefix t (asc "owpub") 82 113 531256022 hl (by decide) (by decide)
        (by decide +kernel) (by decide +kernel) (by decide) (by decide +kernel) e1
      refine ⟨t, ?_, by simpa [hp'] using hpre, ?_⟩
      · unfold owEncode; rw [if_neg hp, if_neg hb]; exact e1
      · unfold owDecode
        rw [if_pos (prefix_isPrefixOf hpre), e2]
        exact hf

/-- For every key length below 32: an exponent and the number written by the first five symbols of the text of a
private key of that length. -/
def OwKeychain.shortStarts : List (Nat × Nat) :=
  [(70, 30833908), (71, 136094490), (72, 600692924), (74, 45712660), (75, 201766224), (77, 15354385),
   (78, 67771081), (79, 299127532), (81, 22763569), (82, 100473686), (83, 443470065), (85, 33748019),
   (86, 148956774), (88, 11335592), (89, 50032961), (90, 220835140), (92, 16805527), (93, 74176123),
   (94, 327398061), (96, 24914953), (97, 109969450), (98, 485382400), (100, 36937542), (101, 163034672),
   (103, 12406919), (104, 54761574), (105, 241706258), (107, 18393817), (108, 81186505), (109, 358340436),
   (111, 27269664), (112, 120362657)]

/-- The text of a private key of fewer than 32 bytes starts with five fixed symbols that are neither `owpub` nor
`owprv`; checked for each of the 32 lengths. -/
def OwKeychain.shortOk (n : Nat) : Bool :=
  match shortStarts[n]? with
  | none => false
  | some (m, w) =>
    decide (w * 58 ^ m ≤ beNat owprvPrefix * 256 ^ (n + 50)) &&
    decide ((beNat owprvPrefix + 1) * 256 ^ (n + 50) ≤ (w + 1) * 58 ^ m) && decide (w ≠ 0) &&
    match Base58.symbols alphabet (Nat.digits 58 w).reverse with
    | .ok p => decide (p.length = 5) && decide (p ≠ asc "owpub") && decide (p ≠ asc "owprv")
    | _ => false

theorem OwKeychain.shortOk_all : ∀ n < 32, shortOk n = true := by decide +kernel

/-- The part of C14 that fails (a): a private key stored in fewer than 32 bytes (see C18) is serialised to a text that
`OWDecode` rejects. -/
theorem C14_short_private_key_violated (E : Ext) (k : ExtendedKey) (hp : k.isPrivate = true)
    (h1 : k.parentFP.length = 4) (h2 : k.chainCode.length = 32) (h3 : k.key.length < 32) :
    ∃ t, owEncode E k = .ok t ∧ owDecode E t = .err := by
  obtain ⟨t, e1, _⟩ := b58Check_roundtrip E.H (beBytes 4 k.curveType.toNat ++ [k.depth] ++ k.parentFP ++
    beBytes 4 k.serializes.toNat ++ k.chainCode ++ (if padded E.ids k.curveType k.isPrivate then [0] else []) ++
    k.key) owprvPrefix
  have hs := shortOk_all _ h3
  unfold shortOk at hs
  split at hs
  · cases hs
  · rename_i m w _
    simp only [Bool.and_eq_true, decide_eq_true_eq] at hs
    obtain ⟨⟨⟨g1, g2⟩, g3⟩, g4⟩ := hs
    split at g4
    · rename_i p hpp
      simp only [Bool.and_eq_true, decide_eq_true_eq] at g4
      obtain ⟨⟨g4, g5⟩, g6⟩ := g4
      have hpre := b58Check_prefix E.H _ owprvPrefix t p (k.key.length + 50) m w (by
          simp [h1, h2, padded, hp]; omega) (by decide) (by decide) g1 g2 g3 hpp e1
      refine ⟨t, ?_, ?_⟩
      · unfold owEncode; rw [if_pos hp]; exact e1
      · unfold owDecode
        rw [if_neg (by simp [prefix_excl hpre (q := asc "owpub") (by rw [g4]; rfl) g5]),
          if_neg (by simp [prefix_excl hpre (q := asc "owprv") (by rw [g4]; rfl) g6])]
    · cases g4

example : ∃ k : ExtendedKey, k.isPrivate = true ∧ k.parentFP.length = 4 ∧ k.chainCode.length = 32 ∧ k.key.length = 31 :=
  ⟨{ depth := 1, parentFP := [1, 2, 3, 4], serializes := 0, chainCode := List.replicate 32 9,
     key := List.replicate 31 5, isPrivate := true, curveType := 0 }, rfl, rfl, rfl, rfl⟩

/-- The part of C14 that fails (b): public keys of 32 bytes on the curve `ED25519_NORMAL` (an ed25519 curve that is
not in the zero-padded list of `OWEncode`) are serialised to a text that `OWDecode` rejects. -/
theorem C14_ed25519_normal_violated (E : Ext) (k : ExtendedKey) (hp : k.isPrivate = false)
    (hc : k.curveType = E.ids.ed25519Normal)
    (h1 : k.parentFP.length = 4) (h2 : k.chainCode.length = 32) (h3 : k.key.length = 32) :
    ∃ t, owEncode E k = .ok t ∧ owDecode E t = .err := by
  have hd := E.ids.distinct
  simp only [List.nodup_cons, List.mem_cons, List.not_mem_nil, or_false, not_or] at hd
  have hed : edLike E.ids k.curveType = false := by
    by_contra hh
    have := (edLike_iff _ _).mp (by simpa using hh)
    rw [hc] at this
    rcases this with h | h | h <;> simp_all
  have hbl : isBls E.ids k.curveType = false := by
    by_contra hh
    have := (isBls_iff _ _).mp (by simpa using hh)
    rw [hc] at this
    rcases this with h | h <;> simp_all
  obtain ⟨t, e1, _⟩ := b58Check_roundtrip E.H (beBytes 4 k.curveType.toNat ++ [k.depth] ++ k.parentFP ++
    beBytes 4 k.serializes.toNat ++ k.chainCode ++ (if padded E.ids k.curveType k.isPrivate then [0] else []) ++
    k.key) owpubPrefix
  have hpre := b58Check_prefix E.H _ owpubPrefix t (asc "Bdtdq") 81 112 120362692 (by
      simp [h1, h2, h3, padded, hp, hed]) (by decide) (by decide)
    (by decide +kernel) (by decide +kernel) (by decide) (by decide +kernel) e1
  refine ⟨t, ?_, ?_⟩
  · unfold owEncode; rw [if_neg (by simp [hp]), if_neg (by simp [hbl])]; exact e1
  · unfold owDecode
    rw [if_neg (by simp [prefix_excl hpre (q := asc "owpub") (by decide) (by decide)]),
      if_neg (by simp [prefix_excl hpre (q := asc "owprv") (by decide) (by decide)])]

/-- C58. `OWDecode` never panics, whatever the text: the unchecked indexing of the decoded bytes is safe because no text
starting with `owprv`/`owpub` decodes to fewer than 87 bytes carrying the matching version prefix. -/
theorem C58_owdecode_total (E : Ext) (t : Bytes) : owDecode E t ≠ .panic := by
  unfold owDecode
  split
  · rename_i h
    obtain ⟨r, rfl⟩ := List.isPrefixOf_iff_prefix.mp h
    have hpub := b58CheckDecode_long E.H (r := r) (p := asc "owpub") (fix := owpubPrefix) 531256022
      (by decide +kernel) (by decide) (by decide) gap_pub
    have hbls := b58CheckDecode_long E.H (r := r) (p := asc "owpub") (fix := owpubPrefixBLS) 531256022
      (by decide +kernel) (by decide) (by decide) gap_bls
    rcases hpub with h1 | ⟨d, h1, h2⟩
    · rw [h1]
      rcases hbls with h3 | ⟨d, h3, h4⟩
      · simp [h3]
      · simp only [h3, Res.bind_ok]; exact owFields_ne_panic _ _ _ (by omega)
    · rw [h1]; exact owFields_ne_panic _ _ _ (by omega)
  · split
    · rename_i h
      obtain ⟨r, rfl⟩ := List.isPrefixOf_iff_prefix.mp h
      have hprv := b58CheckDecode_long E.H (r := r) (p := asc "owprv") (fix := owprvPrefix) 531255867
        (by decide +kernel) (by decide) (by decide) gap_prv
      rcases hprv with h1 | ⟨d, h1, h2⟩
      · simp [h1]
      · simp only [h1, Res.bind_ok]; exact owFields_ne_panic _ _ _ (by omega)
    · simp

/-! ### Guards on derivation -/

/-- C16 (a). A public extended key never yields a private child. -/
theorem C16_no_private_from_public (E : Ext) (k : ExtendedKey) (i : UInt32) (h : k.isPrivate = false) :
    genPrivateChild E k i = .err := by
  unfold genPrivateChild
  split
  · rfl
  · simp [h]

/-- C16 (b). A public extended key never yields a hardened child. -/
theorem C16_no_hardened_from_public (E : Ext) (k : ExtendedKey) (i : UInt32) (h : k.isPrivate = false)
    (hi : 2 ^ 31 ≤ i.toNat) : genPublicChild E k i = .err := by
  have h2 : i ≥ 0x80000000 := by
    rw [ge_iff_le, UInt32.le_iff_toNat_le]; exact hi
  unfold genPublicChild
  simp [h, h2]

/-- C16 (c). From a private key, every derived child (private or public) is exactly one level deeper; at depth 255
derivation is refused. -/
theorem C16_depth_private_partial (E : Ext) (k : ExtendedKey) (i : UInt32) (h : k.isPrivate = true) :
    (∀ c, genPrivateChild E k i = .ok c → c.depth.toNat = k.depth.toNat + 1) ∧
    (∀ c, genPublicChild E k i = .ok c → c.depth.toNat = k.depth.toNat + 1) ∧
    (k.depth.toNat = 255 → genPrivateChild E k i = .err ∧ genPublicChild E k i = .err) := by
  have hdep : ∀ d : UInt8, d ≠ 255 → (d + 1).toNat = d.toNat + 1 := by
    intro d hd
    have : d.toNat ≠ 255 := fun h => hd (UInt8.toNat_inj.mp h)
    have := d.toNat_lt
    rw [UInt8.toNat_add]; simp; omega
  have h1 : ∀ c, genPrivateChild E k i = .ok c → c.depth.toNat = k.depth.toNat + 1 := by
    intro c hc
    obtain ⟨hd, _, ck, _, rfl⟩ := (genPrivateChild_ok E k i c).mp hc
    exact hdep _ hd
  have h255 : k.depth.toNat = 255 → genPrivateChild E k i = .err := by
    intro hd
    have : k.depth = 255 := UInt8.toNat_inj.mp hd
    simp [genPrivateChild, this]
  refine ⟨h1, ?_, ?_⟩
  · intro c hc
    unfold genPublicChild at hc
    rw [if_neg (by simp [h])] at hc
    rw [Res.bind_eq_ok] at hc
    obtain ⟨p, hp, hc⟩ := hc
    cases hc
    apply hdep
    intro hd
    rw [h255 (by rw [hd]; rfl)] at hp; cases hp
  · intro hd
    refine ⟨h255 hd, ?_⟩
    unfold genPublicChild
    rw [if_neg (by simp [h]), h255 hd]; rfl

/-- The part of C16 that fails: public derivation has no depth guard. From a public key at depth 255 every accepted
child wraps around to depth 0 (it then serialises like a master key), and such children are accepted. -/
theorem C16_depth_public_violated :
    (∀ (E : Ext) (k : ExtendedKey) (i : UInt32) (c : ExtendedKey), k.isPrivate = false → k.depth.toNat = 255 →
      genPublicChild E k i = .ok c → c.depth.toNat = 0) ∧
    ∃ (E : Ext) (k : ExtendedKey) (i : UInt32) (c : ExtendedKey), k.isPrivate = false ∧ k.depth.toNat = 255 ∧
      WellFormedKey E.ids k ∧ genPublicChild E k i = .ok c := by
  constructor
  · intro E k i c hp hd h
    have : k.depth = 255 := UInt8.toNat_inj.mp hd
    unfold genPublicChild at h
    rw [if_pos (by simp [hp])] at h
    split at h
    · cases h
    · rw [Res.bind_eq_ok] at h
      obtain ⟨ck, _, h⟩ := h
      cases h
      rw [this]; rfl
  · let E := toyExt (List.replicate 64 1) rfl
    let k : ExtendedKey := {
      depth := 255, parentFP := [1, 2, 3, 4], serializes := 7, chainCode := List.replicate 32 9,
      key := leBytes 32 5, isPrivate := false, curveType := toyIds.ed25519 }
    have hok : (genPublicChild E k 3).isOk = true := by decide +kernel
    cases hc : genPublicChild E k 3 with
    | ok c => exact ⟨E, k, 3, c, rfl, rfl, ⟨rfl, rfl, by decide +kernel⟩, hc⟩
    | err => rw [hc] at hok; cases hok
    | panic => rw [hc] at hok; cases hok

/-! ### Invariants along every derivation path -/

/-- C17. Every ed25519 private key derived from any seed along any path is exactly 32 bytes long, a multiple of 8, and
lies in [2^254, 2^255 + 2^235) ⊂ [0, 2^256): derivation never overflows the 32 bytes and never clears the top bits.
The key also has well-formed fields, so it survives serialisation (C14). -/
theorem C17_ed25519_scalars (E : Ext) (seed path : Bytes) (c : UInt32)
    (hc : c = E.ids.ed25519 ∨ c = E.ids.x25519 ∨ c = E.ids.curve25519Sha256) (k : ExtendedKey)
    (h : derivePrivate E seed path c = .ok k) :
    k.key.length = 32 ∧ leNat k.key % 8 = 0 ∧ 2 ^ 254 ≤ leNat k.key ∧ leNat k.key < 2 ^ 255 + 2 ^ 235 ∧
      k.isPrivate = true ∧ WellFormedKey E.ids k := by
  have hed := (edLike_iff E.ids c).mpr hc
  have hinv : PrivShape c k ∧ EdRange k.depth.toNat k.key := by
    refine derivePrivate_invariant E seed path c (fun k => PrivShape c k ∧ EdRange k.depth.toNat k.key) ?_ ?_ k h
    · intro k hk
      obtain ⟨h1, h2⟩ := root_shape E seed c k hk
      refine ⟨h1, ?_⟩
      rw [h2]
      unfold initRootKey at hk
      split at hk
      · cases hk
      · cases hk
        have hb : isBls E.ids c = false := by
          by_contra hb
          rw [bls_not_ed E.ids c (by simpa using hb)] at hed; cases hed
        have hpa : (c == E.ids.pasta) = false := by
          have hd := E.ids.distinct
          simp only [List.nodup_cons, List.mem_cons, List.not_mem_nil, or_false, not_or] at hd
          rcases hc with rfl | rfl | rfl <;> simp [hd]
        simp only [hb, hpa, Bool.false_eq_true, if_false]
        exact ed_root _ (by rw [E.H.size]; rfl)
    · rintro k i k' ⟨hs, hl, h8, hlo, hhi⟩ hk
      refine ⟨child_shape E c k i k' hs hk, ?_⟩
      obtain ⟨hd, _, ck, hck, rfl⟩ := (genPrivateChild_ok E k i k').mp hk
      have hdep := (C16_depth_private_partial E k i hs.priv).1 _ hk
      have h255 := k.depth.toNat_lt
      have hne : k.depth.toNat ≠ 255 := fun h => hd (UInt8.toNat_inj.mp h)
      rw [hs.curve] at hck
      obtain ⟨e1, e2, _⟩ := priChild_ed E _ k.key c hed hlo (by omega) ck hck
      have hlt := leNat_take_lt ((childI E k i).take 32) 28
      simp only at hdep ⊢
      unfold EdRange
      rw [hdep, e2]
      refine ⟨e1, by omega, by omega, ?_⟩
      have : (k.depth.toNat + 1) * 2 ^ 227 = k.depth.toNat * 2 ^ 227 + 2 ^ 227 := by rw [Nat.add_mul, Nat.one_mul]
      rw [this]
      omega
  obtain ⟨hs, h1, h2, h3, h4⟩ := hinv
  have := k.depth.toNat_lt
  refine ⟨h1, h2, h3, ?_, hs.priv, ⟨hs.fp, hs.cc, by rw [if_pos hs.priv]; exact h1⟩⟩
  have : k.depth.toNat * 2 ^ 227 ≤ 255 * 2 ^ 227 := Nat.mul_le_mul_right _ (by omega)
  omega

-- a concrete derivation meeting the hypotheses
example : (derivePrivate (toyExt (List.replicate 64 1) rfl) (List.replicate 16 5) (asc "m/44'/88'/0'") toyIds.ed25519).isOk
    = true := by decide +kernel

/-- C18, the provable part, for every curve outside the ed25519 family: an accepted private child is the number
(I_L + parent) mod n, it is not zero, and it is stored in at most 32 bytes; it is stored in exactly 32 bytes precisely
when it is at least 2^240. Missing: "exactly 32 bytes" for the smaller values, which is false (next theorem). -/
theorem C18_private_child_partial (E : Ext) (k : ExtendedKey) (i : UInt32) (c : ExtendedKey)
    (hed : ¬ (k.curveType = E.ids.ed25519 ∨ k.curveType = E.ids.x25519 ∨ k.curveType = E.ids.curve25519Sha256))
    (h : genPrivateChild E k i = .ok c) :
    0 < beNat c.key ∧ beNat c.key < curveOrder E.ids k.curveType ∧ c.key.length ≤ 32 ∧
      (c.key.length = 32 ↔ 2 ^ 240 ≤ beNat c.key) := by
  have hed' : edLike E.ids k.curveType = false := by
    by_contra hh; exact hed ((edLike_iff _ _).mp (by simpa using hh))
  obtain ⟨_, _, ck, hck, rfl⟩ := (genPrivateChild_ok E k i c).mp h
  unfold priChild at hck
  rw [typeChoose_idem, typeChoose_not_ed _ _ hed'] at hck
  simp only [hed', Bool.false_eq_true, if_false] at hck
  split at hck
  · cases hck
  · rename_i h1
    split at hck
    · cases hck
    · rename_i h2
      cases hck
      have hn : curveOrder E.ids k.curveType ≤ 2 ^ 256 - 1 := by
        unfold curveOrder
        split_ifs <;> norm_num
      have hlt : (beNat ((childI E k i).take 32) + beNat k.key) % curveOrder E.ids k.curveType <
          curveOrder E.ids k.curveType := Nat.mod_lt _ (by omega)
      generalize (beNat ((childI E k i).take 32) + beNat k.key) % curveOrder E.ids k.curveType = v at *
      simp only [beNat_padLoop, beNat_bigBytes]
      have hl := (bigBytes_length_le v 32).mpr (by omega)
      have h30 := bigBytes_length_le v 30
      rw [pad_length _ hl]
      refine ⟨by omega, hlt, by omega, ?_⟩
      constructor
      · intro h3
        by_contra h4
        have := h30.mpr (by omega)
        omega
      · intro h3
        have : ¬ (bigBytes v).length ≤ 30 := by rw [h30]; omega
        omega

/-- The part of C18 that fails: on secp256k1 a valid 32-byte parent has accepted children whose key is only 31 bytes
long (the zero padding loop stops half way), and the serialisation of such a child cannot be read back. -/
theorem C18_short_child_key_violated :
    ∃ (E : Ext) (k : ExtendedKey) (i : UInt32) (c : ExtendedKey), k.curveType = E.ids.secp256k1 ∧
      WellFormedKey E.ids k ∧ k.isPrivate = true ∧ 0 < beNat k.key ∧ beNat k.key < curveOrder E.ids k.curveType ∧
      genPrivateChild E k i = .ok c ∧ c.key.length = 31 ∧ ∃ t, owEncode E c = .ok t ∧ owDecode E t = .err := by
  let E := toyExt (beBytes 32 (2 ^ 239) ++ List.replicate 32 1) rfl
  let k : ExtendedKey := {
    depth := 0, parentFP := [0, 0, 0, 0], serializes := 0, chainCode := List.replicate 32 9,
    key := beBytes 32 5, isPrivate := true, curveType := toyIds.secp256k1 }
  have hok : (match genPrivateChild E k 3 with | .ok c => c.key.length == 31 && c.isPrivate | _ => false) = true := by
    decide +kernel
  have hshape := child_shape E k.curveType k 3
  cases hc : genPrivateChild E k 3 with
  | err => rw [hc] at hok; cases hok
  | panic => rw [hc] at hok; cases hok
  | ok c =>
    rw [hc] at hok
    simp only [Bool.and_eq_true, beq_iff_eq] at hok
    have hs := hshape c ⟨rfl, rfl, rfl, rfl⟩ hc
    exact ⟨E, k, 3, c, rfl, ⟨rfl, rfl, by decide⟩, rfl, by decide +kernel, by decide +kernel, hc, hok.1,
      C14_short_private_key_violated E c hs.priv hs.fp hs.cc (by omega)⟩

/-- The part of C18 that fails, exactly: outside the ed25519 family the serialisation of an accepted private child can
be read back when the child's number is at least 2^240, and is refused when it is smaller. -/
theorem C18_child_text_violated (E : Ext) (k : ExtendedKey) (i : UInt32) (c : ExtendedKey)
    (hed : ¬ (k.curveType = E.ids.ed25519 ∨ k.curveType = E.ids.x25519 ∨ k.curveType = E.ids.curve25519Sha256))
    (wf : WellFormedKey E.ids k) (h : genPrivateChild E k i = .ok c) :
    ∃ t, owEncode E c = .ok t ∧ owDecode E t = (if 2 ^ 240 ≤ beNat c.key then .ok c else .err) := by
  obtain ⟨_, hp, _⟩ := (genPrivateChild_ok E k i c).mp h
  have hs := child_shape E k.curveType k i c ⟨wf.parentFP, wf.chainCode, by simpa using hp, rfl⟩ h
  obtain ⟨_, _, hle, hiff⟩ := C18_private_child_partial E k i c hed h
  by_cases hb : 2 ^ 240 ≤ beNat c.key
  · obtain ⟨t, e1, _, e2⟩ := C14_owkey_roundtrip E c ⟨hs.fp, hs.cc, by rw [if_pos hs.priv]; exact hiff.mpr hb⟩
    exact ⟨t, e1, by rw [if_pos hb]; exact e2⟩
  · obtain ⟨t, e1, e2⟩ := C14_short_private_key_violated E c hs.priv hs.fp hs.cc
      (by have : c.key.length ≠ 32 := fun h => hb (hiff.mp h)
          omega)
    exact ⟨t, e1, by rw [if_neg hb]; exact e2⟩

/-! ### Public and private derivation commute -/

theorem OwKeychain.order_zero_iff {G : Type} [AddCommGroup G] (g : G) (n m : Nat) (ho : addOrderOf g = n) :
    m • g = 0 ↔ m % n = 0 := by
  rw [← ho, ← addOrderOf_dvd_iff_nsmul_eq_zero, Nat.dvd_iff_mod_eq_zero]

theorem OwKeychain.order_mod {G : Type} [AddCommGroup G] (g : G) (n m : Nat) (ho : addOrderOf g = n) :
    (m % n) • g = m • g := by
  rw [← ho]; exact mod_addOrderOf_nsmul g m

theorem OwKeychain.genPublic_of_public (E : Ext) (k : ExtendedKey) (i : UInt32) (hp : k.isPrivate = true)
    (hi : i.toNat < 2 ^ 31) :
    genPublicChild E (getPublicKey E k) i =
      (pubChild E ((childI E k i).take 32) (E.mulBaseG (typeChoose E.ids k.curveType) k.key)
        (typeChoose E.ids k.curveType)).bind (fun ck => .ok
        { depth := k.depth + 1, parentFP := getFP E k.key true (typeChoose E.ids k.curveType), serializes := i,
          chainCode := (childI E k i).drop 32, key := ck, isPrivate := false, curveType := k.curveType }) := by
  have hn : ¬ (i ≥ 0x80000000) := by
    rw [ge_iff_le, UInt32.le_iff_toNat_le]
    have : (0x80000000 : UInt32).toNat = 2 ^ 31 := rfl
    omega
  have hg : getPublicKey E k = { k with key := E.mulBaseG (typeChoose E.ids k.curveType) k.key, isPrivate := false } := by
    simp [getPublicKey, hp]
  have hlen := childI_length E k i
  rw [hg]
  unfold genPublicChild
  simp only [Bool.not_false, if_true, if_neg hn]
  have hI : getI E (E.mulBaseG (typeChoose E.ids k.curveType) k.key) k.chainCode i (typeChoose E.ids k.curveType)
      = childI E k i := by simp [childI, hn]
  rw [hI, hlen]
  simp [getFP, typeChoose_idem]
  rfl

theorem OwKeychain.genPublic_of_private (E : Ext) (k : ExtendedKey) (i : UInt32) (c : ExtendedKey)
    (h : genPrivateChild E k i = .ok c) : genPublicChild E k i = .ok (getPublicKey E c) := by
  obtain ⟨_, hp, ck, _, rfl⟩ := (genPrivateChild_ok E k i c).mp h
  unfold genPublicChild
  rw [if_neg (by simp [hp]), h]
  simp [getPublicKey]

theorem OwKeychain.genPrivate_none (E : Ext) (k : ExtendedKey) (i : UInt32) (hd : k.depth.toNat ≠ 255)
    (hp : k.isPrivate = true) (h : genPrivateChild E k i = .err) :
    priChild E ((childI E k i).take 32) k.key (typeChoose E.ids k.curveType) = none := by
  cases hc : priChild E ((childI E k i).take 32) k.key (typeChoose E.ids k.curveType) with
  | none => rfl
  | some ck =>
    have := (genPrivateChild_ok E k i _).mpr ⟨fun h => hd (by rw [h]; rfl), hp, ck, hc, rfl⟩
    rw [h] at this; cases this

/-- C15 on the short-Weierstrass curves (secp256k1, secp256r1, sm2). For every private parent (32-byte key, not zero
modulo the order, below the depth limit) and non-hardened index: if the private child is refused, so is the public
one; otherwise the child derived from the parent's public key is, in every field, the public key of the private child.
Partial: the child key is required to be 32 bytes long, which C18 shows not to be guaranteed (and the behaviour of
the external point multiplication on shorter scalars is not specified). -/
theorem C15_commute_weierstrass_partial (E : Ext) (k : ExtendedKey) (i : UInt32)
    (hc : k.curveType = E.ids.secp256k1 ∨ k.curveType = E.ids.secp256r1 ∨ k.curveType = E.ids.sm2)
    (law : WeierstrassLaw E k.curveType) (hp : k.isPrivate = true) (hl : k.key.length = 32)
    (hk : beNat k.key % curveOrder E.ids k.curveType ≠ 0) (hd : k.depth.toNat ≠ 255) (hi : i.toNat < 2 ^ 31) :
    (genPrivateChild E k i = .err → genPublicChild E (getPublicKey E k) i = .err) ∧
    (∀ c, genPrivateChild E k i = .ok c → c.key.length = 32 →
      genPublicChild E (getPublicKey E k) i = .ok (getPublicKey E c) ∧
      genPublicChild E k i = .ok (getPublicKey E c)) := by
  have hdis := E.ids.distinct
  simp only [List.nodup_cons, List.mem_cons, List.not_mem_nil, or_false, not_or] at hdis
  have hed : edLike E.ids k.curveType = false := by
    by_contra hh
    have := (edLike_iff _ _).mp (by simpa using hh)
    rcases hc with h | h | h <;> rw [h] at this <;> rcases this with h | h | h <;> simp_all
  have hbl : isBls E.ids k.curveType = false := by
    by_contra hh
    have := (isBls_iff _ _).mp (by simpa using hh)
    rcases hc with h | h | h <;> rw [h] at this <;> rcases this with h | h <;> simp_all
  have htc := typeChoose_not_ed _ _ hed
  rw [genPublic_of_public E k i hp hi, htc]
  let := law.group
  have hP : beNat k.key • law.g ≠ 0 := by rw [Ne, order_zero_iff _ _ _ law.order]; exact hk
  rw [law.mulBaseG k.key hl hP]
  have hil : ((childI E k i).take 32).length = 32 := by simp [childI_length]
  have hsum : beNat k.key • law.g + beNat ((childI E k i).take 32) • law.g
      = (beNat ((childI E k i).take 32) + beNat k.key) • law.g := by rw [add_comm, add_nsmul]
  have hinf := law.add_infinity _ _ hP hil
  have hadd := law.add _ _ hP hil
  rw [hsum] at hinf hadd
  constructor
  · intro herr
    have hnone := genPrivate_none E k i hd hp herr
    unfold priChild at hnone
    unfold pubChild
    rw [htc] at hnone ⊢
    simp only [hed, hbl, Bool.false_eq_true, if_false, htc] at hnone ⊢
    split at hnone
    · rename_i h1; rw [if_pos h1]; rfl
    · rename_i h1
      rw [if_neg h1]
      split at hnone
      · rename_i h2
        rw [law.decompress _ hP]
        have hs : slice (4 :: law.full (beNat k.key • law.g)) 1 (4 :: law.full (beNat k.key • law.g)).length
            = .ok (law.full (beNat k.key • law.g)) :=
          slice_suffix [4] _ rfl (by simp; omega)
        rw [hs]
        simp only [Res.bind_ok]
        rw [hinf.mpr ((order_zero_iff _ _ _ law.order).mpr h2)]
        rfl
      · cases hnone
  · intro c hchild hlen
    refine ⟨?_, genPublic_of_private E k i c hchild⟩
    obtain ⟨_, _, ck, hck, rfl⟩ := (genPrivateChild_ok E k i c).mp hchild
    unfold priChild at hck
    unfold pubChild
    rw [htc] at hck ⊢
    simp only [hed, hbl, Bool.false_eq_true, if_false, htc] at hck ⊢
    split at hck
    · cases hck
    · rename_i h1
      rw [if_neg h1]
      split at hck
      · cases hck
      · rename_i h2
        have hval : beNat ck = (beNat ((childI E k i).take 32) + beNat k.key) % curveOrder E.ids k.curveType := by
          rw [← Option.some.inj hck, beNat_padLoop, beNat_bigBytes]
        rw [law.decompress _ hP]
        have hs : slice (4 :: law.full (beNat k.key • law.g)) 1 (4 :: law.full (beNat k.key • law.g)).length
            = .ok (law.full (beNat k.key • law.g)) :=
          slice_suffix [4] _ rfl (by simp; omega)
        rw [hs]
        simp only [Res.bind_ok]
        have hne : (beNat ((childI E k i).take 32) + beNat k.key) • law.g ≠ 0 := by
          rw [Ne, order_zero_iff _ _ _ law.order]; exact h2
        have hfalse : (E.mulBaseGAdd k.curveType (law.full (beNat k.key • law.g)) ((childI E k i).take 32)).2 = false := by
          by_contra hh; exact hne (hinf.mp (by simpa using hh))
        have hmul : E.mulBaseG k.curveType ck = law.comp ((beNat ((childI E k i).take 32) + beNat k.key) • law.g) := by
          have hv : beNat ck • law.g = (beNat ((childI E k i).take 32) + beNat k.key) • law.g := by
            rw [hval, order_mod _ _ _ law.order]
          rw [law.mulBaseG ck hlen (by rw [hv]; exact hne), hv]
        rw [hfalse, hadd hne, law.compress _ hne]
        simp [getPublicKey, htc, hmul, Res.bind]

/-- C15 on the ed25519 family, for every parent reached from a seed: if the private child is refused, so is the public
one; otherwise the child derived from the parent's public key is the public key of the private child, in every field. -/
theorem C15_commute_ed25519 (E : Ext) (seed path : Bytes) (curve : UInt32) (k : ExtendedKey) (i : UInt32)
    (hc : curve = E.ids.ed25519 ∨ curve = E.ids.x25519 ∨ curve = E.ids.curve25519Sha256)
    (law : SimpleLaw E E.ids.ed25519 leNat) (hk : derivePrivate E seed path curve = .ok k)
    (hnz : leNat k.key % curveOrder E.ids E.ids.ed25519 ≠ 0) (hd : k.depth.toNat ≠ 255) (hi : i.toNat < 2 ^ 31) :
    (genPrivateChild E k i = .err → genPublicChild E (getPublicKey E k) i = .err) ∧
    (∀ c, genPrivateChild E k i = .ok c →
      genPublicChild E (getPublicKey E k) i = .ok (getPublicKey E c) ∧
      genPublicChild E k i = .ok (getPublicKey E c)) := by
  have hshape : PrivShape curve k :=
    derivePrivate_invariant E seed path curve (PrivShape curve) (fun k hk => (root_shape E seed curve k hk).1)
      (fun k i k' h1 h2 => child_shape E curve k i k' h1 h2) k hk
  obtain ⟨hl, _, hlo, hhi, hp, _⟩ := C17_ed25519_scalars E seed path curve hc k hk
  rw [← hshape.curve] at hc
  have hed := (edLike_iff E.ids _).mpr hc
  have htc := typeChoose_ed _ _ hed
  rw [genPublic_of_public E k i hp hi, htc]
  let := law.group
  have hP : leNat k.key • law.g ≠ 0 := by rw [Ne, order_zero_iff _ _ _ law.order]; exact hnz
  rw [law.mulBaseG k.key hl hP]
  have hlt := leNat_take_lt ((childI E k i).take 32) 28
  have hs32 : (leBytes 32 (leNat (((childI E k i).take 32).take 28) * 8)).length = 32 := by simp
  have hsv : leNat (leBytes 32 (leNat (((childI E k i).take 32).take 28) * 8))
      = leNat (((childI E k i).take 32).take 28) * 8 := leNat_leBytes_of_lt (by omega)
  have hinf := law.add_infinity _ _ hP hs32
  have hadd := law.add _ _ hP hs32
  have hsum : leNat k.key • law.g + (leNat (((childI E k i).take 32).take 28) * 8) • law.g
      = (leNat (((childI E k i).take 32).take 28) * 8 + leNat k.key) • law.g := by rw [add_comm, add_nsmul]
  rw [hsv, hsum] at hinf hadd
  have hpub : pubChild E ((childI E k i).take 32) (law.enc (leNat k.key • law.g)) E.ids.ed25519 =
      match E.mulBaseGAdd E.ids.ed25519 (law.enc (leNat k.key • law.g))
        (leBytes 32 (leNat (((childI E k i).take 32).take 28) * 8)) with
      | (p, inf) => if inf then .err else .ok p := by
    unfold pubChild
    rw [typeChoose_ed _ _ (edLike_ed E.ids)]
    simp only [edLike_ed, if_true]
  rw [hpub]
  constructor
  · intro herr
    have hnone := genPrivate_none E k i hd hp herr
    unfold priChild at hnone
    rw [typeChoose_idem, htc] at hnone
    simp only [edLike_ed, if_true] at hnone
    split at hnone
    · rename_i h2
      rw [show E.mulBaseGAdd E.ids.ed25519 (law.enc (leNat k.key • law.g))
        (leBytes 32 (leNat (((childI E k i).take 32).take 28) * 8)) = (_, true) from
        Prod.ext rfl (hinf.mpr ((order_zero_iff _ _ _ law.order).mpr h2))]
      rfl
    · cases hnone
  · intro c hchild
    refine ⟨?_, genPublic_of_private E k i c hchild⟩
    obtain ⟨_, _, ck, hck, rfl⟩ := (genPrivateChild_ok E k i c).mp hchild
    obtain ⟨c1, c2, c3⟩ := priChild_ed E _ k.key k.curveType hed hlo (by omega) ck hck
    have hne : (leNat (((childI E k i).take 32).take 28) * 8 + leNat k.key) • law.g ≠ 0 := by
      rw [Ne, order_zero_iff _ _ _ law.order]; exact c3
    have hmul : E.mulBaseG E.ids.ed25519 ck =
        law.enc ((leNat (((childI E k i).take 32).take 28) * 8 + leNat k.key) • law.g) := by
      rw [law.mulBaseG ck c1 (by rw [c2]; exact hne), c2]
    have hfalse : (E.mulBaseGAdd E.ids.ed25519 (law.enc (leNat k.key • law.g))
        (leBytes 32 (leNat (((childI E k i).take 32).take 28) * 8))).2 = false := by
      by_contra hh; exact hne (hinf.mp (by simpa using hh))
    rw [show E.mulBaseGAdd E.ids.ed25519 (law.enc (leNat k.key • law.g))
        (leBytes 32 (leNat (((childI E k i).take 32).take 28) * 8)) = (_, false) from Prod.ext rfl hfalse]
    simp [getPublicKey, htc, hmul, Res.bind, hadd hne]

-- the group laws can be met, and so can the other hypotheses
example : Nonempty (WeierstrassLaw (toyExt (List.replicate 64 1) rfl) toyIds.secp256k1) := ⟨toyWeier _ _⟩
example : Nonempty (SimpleLaw (toyExt (List.replicate 64 1) rfl) toyIds.ed25519 leNat) := ⟨toyEd _ _⟩

/-- A concrete secp256k1 parent for the example below. -/
def OwKeychain.parentEx : ExtendedKey where
  depth := 3
  parentFP := [1, 2, 3, 4]
  serializes := 0
  chainCode := List.replicate 32 9
  key := beBytes 32 (2 ^ 250 + 77)
  isPrivate := true
  curveType := toyIds.secp256k1

-- C14, C58: a well-formed key, and a text that is accepted
example : WellFormedKey toyIds parentEx ∧ WellFormedKey toyIds { parentEx with
    key := 2 :: List.replicate 32 7
    isPrivate := false } :=
  ⟨⟨rfl, rfl, by decide +kernel⟩, ⟨rfl, rfl, by decide +kernel⟩⟩
example : (match owEncode (toyExt (List.replicate 64 1) rfl) parentEx with
    | .ok t => (owDecode (toyExt (List.replicate 64 1) rfl) t).isOk
    | _ => false) = true := by decide +kernel
-- C16: the guards are not vacuous, the same calls succeed on a private key
example : (genPublicChild (toyExt (List.replicate 64 1) rfl) parentEx 0x80000000).isOk = true ∧
    (genPrivateChild (toyExt (List.replicate 64 1) rfl) parentEx 0x80000000).isOk = true := by decide +kernel

example : (match genPrivateChild (toyExt (List.replicate 64 1) rfl) parentEx 5 with
    | .ok c => c.key.length == 32
    | _ => false) = true ∧ beNat parentEx.key % curveOrder toyIds toyIds.secp256k1 ≠ 0 := by decide +kernel
example : (match derivePrivate (toyExt (List.replicate 64 1) rfl) (List.replicate 16 5) (asc "m/44'/88'")
      toyIds.x25519 with
    | .ok k => decide (leNat k.key % curveOrder toyIds toyIds.ed25519 ≠ 0) &&
        (genPublicChild (toyExt (List.replicate 64 1) rfl) k 5).isOk
    | _ => false) = true := by decide +kernel

end Verif
