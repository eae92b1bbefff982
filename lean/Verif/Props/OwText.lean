import Verif.Props.OwKeychain

/-! Properties C147: which texts `OWDecode` reads as which key. -/

namespace Verif
open Spec OwKeychain

theorem OwKeychain.keyBody_eq (ids : CurveIds) (k : ExtendedKey) : keyBody ids k =
    beBytes 4 k.curveType.toNat ++ [k.depth] ++ k.parentFP ++ beBytes 4 k.serializes.toNat ++ k.chainCode ++
      (if padded ids k.curveType k.isPrivate then [0] else []) ++ k.key := by
  unfold keyBody padded
  by_cases hp : k.isPrivate = true
  · simp [hp]
  · by_cases he : edLike ids k.curveType = true
    · simp [he, (edLike_iff _ _).mp he]
    · have he' : ¬ (k.curveType = ids.ed25519 ∨ k.curveType = ids.x25519 ∨ k.curveType = ids.curve25519Sha256) :=
        fun h => he ((edLike_iff _ _).mpr h)
      simp [hp, he, he']

theorem OwKeychain.isKeyText_iff (H : Hashes) (fix body t : Bytes) :
    IsKeyText H fix body t ↔ b58CheckEncode H body fix = .ok t := by
  unfold IsKeyText b58CheckEncode
  obtain ⟨t', h1, h2, _⟩ := C01_base58_roundtrip alphabet alphabet_ok
    (fix ++ body ++ (H.hash .doubleSha256 (fix ++ body)).take 4)
  rw [h1]
  constructor
  · intro h
    have : t = t' := by
      unfold IsBase58 at h h2
      rw [← h2] at h
      exact List.map_injective_iff.mpr (Option.some_injective _) h
    rw [this]
  · intro h
    cases h
    exact h2

theorem OwKeychain.b58_inv {H : Hashes} {t fix d : Bytes} (h : b58CheckDecode H t fix = .ok d) :
    b58CheckEncode H d fix = .ok t := by
  unfold b58CheckDecode at h
  obtain ⟨b, hb, h1⟩ := Res.bind_eq_ok.mp h
  clear h
  obtain ⟨⟨⟩, hc, h⟩ := Res.bind_eq_ok.mp h1
  clear h1
  by_cases hl : b.length < 4
  · rw [if_pos hl] at h; cases h
  rw [if_neg hl] at h
  dsimp only at h
  rw [slice_ok (by omega) (by omega)] at h
  simp only [Res.bind_ok] at h
  split at h
  · cases h
  rename_i hs
  have hs : (H.hash .doubleSha256 ((b.take (b.length - 4)).drop 0)).take 4 = b.drop (b.length - 4) := by simpa using hs
  obtain ⟨r, rfl⟩ : ∃ r, fix ++ r = b := (cmpPrefix_ok_iff _ _).mp hc
  by_cases hr : fix.length ≤ (fix ++ r).length - 4
  · rw [slice_ok hr (by omega)] at h
    cases h
    have hcan := C02_base58_canonical alphabet alphabet_ok t _ hb
    unfold b58CheckEncode
    have e1 : fix ++ ((fix ++ r).take ((fix ++ r).length - 4)).drop fix.length = (fix ++ r).take ((fix ++ r).length - 4) := by
      conv_rhs => rw [← List.take_append_drop fix.length ((fix ++ r).take ((fix ++ r).length - 4))]
      congr 1
      rw [List.take_take, min_eq_left hr]
      simp
    rw [e1]
    simp only [List.drop_zero] at hs
    rw [hs, List.take_append_drop]
    exact hcan
  · unfold slice at h
    rw [if_neg (by omega)] at h
    cases h

theorem OwKeychain.split_at (d : Bytes) (n : Nat) (h : n ≤ d.length) : ∃ a b : Bytes, d = a ++ b ∧ a.length = n :=
  ⟨d.take n, d.drop n, (List.take_append_drop _ _).symm, by simp [h]⟩

theorem OwKeychain.owFields_inv {ids : CurveIds} {d : Bytes} {p : Bool} {k : ExtendedKey} (h : owFields ids d p = .ok k) :
    k.isPrivate = p ∧ k.parentFP.length = 4 ∧ k.chainCode.length = 32 ∧ keyBody ids k = d := by
  have hl : 45 ≤ d.length := by
    by_contra hc
    unfold owFields at h
    obtain ⟨_, _, h1⟩ := Res.bind_eq_ok.mp h
    clear h
    obtain ⟨_, _, h⟩ := Res.bind_eq_ok.mp h1
    clear h1
    obtain ⟨_, _, h1⟩ := Res.bind_eq_ok.mp h
    clear h
    obtain ⟨_, _, h⟩ := Res.bind_eq_ok.mp h1
    clear h1
    obtain ⟨_, h2, _⟩ := Res.bind_eq_ok.mp h
    unfold slice at h2
    rw [if_neg (by omega)] at h2
    cases h2
  obtain ⟨a, d1, rfl, la⟩ := split_at d 4 (by omega)
  obtain ⟨dp, d2, rfl, ldp⟩ := split_at d1 1 (by simp only [List.length_append] at hl; omega)
  obtain ⟨fp, d3, rfl, lfp⟩ := split_at d2 4 (by simp only [List.length_append] at hl; omega)
  obtain ⟨se, d4, rfl, lse⟩ := split_at d3 4 (by simp only [List.length_append] at hl; omega)
  obtain ⟨cc, d5, rfl, lcc⟩ := split_at d4 32 (by simp only [List.length_append] at hl; omega)
  obtain ⟨dep, rfl⟩ := List.length_eq_one_iff.mp ldp
  have ea : beBytes 4 (UInt32.ofNat (beNat a)).toNat = a := by
    have hlt : beNat a < 2 ^ 32 := by have := beNat_lt a; rw [la] at this; simpa using this
    rw [UInt32.toNat_ofNat_of_lt' hlt, ← la]; exact beBytes_beNat a
  have es : beBytes 4 (UInt32.ofNat (beNat se)).toNat = se := by
    have hlt : beNat se < 2 ^ 32 := by have := beNat_lt se; rw [lse] at this; simpa using this
    rw [UInt32.toNat_ofNat_of_lt' hlt, ← lse]; exact beBytes_beNat se
  have main : ∀ key pad : Bytes, d5 = pad ++ key → pad = (if padded ids (UInt32.ofNat (beNat a)) p then [0] else []) →
      k.isPrivate = p ∧ k.parentFP.length = 4 ∧ k.chainCode.length = 32 ∧
        keyBody ids k = a ++ ([dep] ++ (fp ++ (se ++ (cc ++ d5)))) := by
    intro key pad e1 e2
    have hf := owFields_eq ids ⟨dep, fp, UInt32.ofNat (beNat se), cc, key, p, UInt32.ofNat (beNat a)⟩ lfp lcc
    simp only [ea, es, ← e2] at hf
    have e3 : a ++ [dep] ++ fp ++ se ++ cc ++ pad ++ key = a ++ ([dep] ++ (fp ++ (se ++ (cc ++ d5)))) := by
      simp [e1]
    rw [e3, h] at hf
    cases hf
    refine ⟨rfl, lfp, lcc, ?_⟩
    rw [keyBody_eq]
    simp only [ea, es, ← e2]
    exact e3
  by_cases hp : padded ids (UInt32.ofNat (beNat a)) p = true
  · have s1 : slice (a ++ ([dep] ++ (fp ++ (se ++ (cc ++ d5))))) 0 4 = .ok a := slice_prefix _ _ la
    have i45 : index (a ++ ([dep] ++ (fp ++ (se ++ (cc ++ d5))))) 45 = index d5 0 := by
      unfold index
      rw [List.getElem?_append_right (by omega), List.getElem?_append_right (by simp; omega),
        List.getElem?_append_right (by simp; omega), List.getElem?_append_right (by simp; omega),
        List.getElem?_append_right (by simp; omega)]
      simp [la, lfp, lse, lcc]
    cases d5 with
    | nil =>
      exfalso
      unfold owFields at h
      rw [s1, Res.bind_ok] at h
      dsimp only at h
      obtain ⟨_, _, h1⟩ := Res.bind_eq_ok.mp h
      clear h
      obtain ⟨_, _, h⟩ := Res.bind_eq_ok.mp h1
      clear h1
      obtain ⟨_, _, h1⟩ := Res.bind_eq_ok.mp h
      clear h
      obtain ⟨_, _, h⟩ := Res.bind_eq_ok.mp h1
      clear h1
      rw [if_pos hp, i45] at h
      cases h
    | cons z r =>
      have hz : z = 0 := by
        by_contra hz
        unfold owFields at h
        rw [s1, Res.bind_ok] at h
        dsimp only at h
        obtain ⟨_, _, h1⟩ := Res.bind_eq_ok.mp h
        clear h
        obtain ⟨_, _, h⟩ := Res.bind_eq_ok.mp h1
        clear h1
        obtain ⟨_, _, h1⟩ := Res.bind_eq_ok.mp h
        clear h
        obtain ⟨_, _, h⟩ := Res.bind_eq_ok.mp h1
        clear h1
        rw [if_pos hp, i45] at h
        simp only [index, List.getElem?_cons_zero, Res.bind_ok] at h
        rw [if_pos hz] at h
        cases h
      subst hz
      exact main r [0] rfl (by rw [if_pos hp])
  · exact main d5 [] rfl (by rw [if_neg hp])

theorem OwKeychain.keyText_decode {H : Hashes} {fix body t : Bytes} (h : IsKeyText H fix body t) :
    b58CheckDecode H t fix = .ok body ∧ ∃ r, Base58.decode alphabet t = .ok (fix ++ r) := by
  have he := (isKeyText_iff _ _ _ _).mp h
  obtain ⟨t', h1, h2⟩ := b58Check_roundtrip H body fix
  rw [he] at h1
  cases h1
  refine ⟨h2, ?_⟩
  obtain ⟨t', c1, _, c2⟩ := C01_base58_roundtrip alphabet alphabet_ok
    (fix ++ body ++ (H.hash .doubleSha256 (fix ++ body)).take 4)
  have : t = t' := by unfold b58CheckEncode at he; rw [c1] at he; exact (Res.ok.inj he).symm
  rw [this, c2]
  exact ⟨body ++ (H.hash .doubleSha256 (fix ++ body)).take 4, by simp⟩

/-- What `OWDecode` reads: three cases, by beginning and version prefix. -/
theorem OwKeychain.owDecode_inv {E : Ext} {t : Bytes} {k : ExtendedKey} (h : owDecode E t = .ok k) :
    k.parentFP.length = 4 ∧ k.chainCode.length = 32 ∧
      ((k.isPrivate = true ∧ asc "owprv" <+: t ∧ IsKeyText E.H owprvPrefix (keyBody E.ids k) t) ∨
       (k.isPrivate = false ∧ asc "owpub" <+: t ∧
        (IsKeyText E.H owpubPrefix (keyBody E.ids k) t ∨ IsKeyText E.H owpubPrefixBLS (keyBody E.ids k) t))) := by
  unfold owDecode at h
  split at h
  · rename_i hp
    have hp := List.isPrefixOf_iff_prefix.mp hp
    cases hd : b58CheckDecode E.H t owpubPrefix with
    | panic => rw [hd] at h; cases h
    | ok d =>
      rw [hd] at h
      obtain ⟨e1, e2, e3, e4⟩ := owFields_inv h
      exact ⟨e2, e3, .inr ⟨e1, hp, .inl ((isKeyText_iff _ _ _ _).mpr (e4 ▸ b58_inv hd))⟩⟩
    | err =>
      rw [hd] at h
      obtain ⟨d, hd2, h2⟩ := Res.bind_eq_ok.mp h
      obtain ⟨e1, e2, e3, e4⟩ := owFields_inv h2
      exact ⟨e2, e3, .inr ⟨e1, hp, .inr ((isKeyText_iff _ _ _ _).mpr (e4 ▸ b58_inv hd2))⟩⟩
  · split at h
    · rename_i hp
      have hp := List.isPrefixOf_iff_prefix.mp hp
      obtain ⟨d, hd2, h2⟩ := Res.bind_eq_ok.mp h
      obtain ⟨e1, e2, e3, e4⟩ := owFields_inv h2
      exact ⟨e2, e3, .inl ⟨e1, hp, (isKeyText_iff _ _ _ _).mpr (e4 ▸ b58_inv hd2)⟩⟩
    · cases h

/-- C147 (a). Exactly which texts `OWDecode` reads as which key, for every text and every key: those that begin with
`owprv` (private key) or `owpub` (public key) and are the checked Base58 text of the fields of the key, four bytes of
fingerprint and 32 bytes of chain code, under the private version prefix or under one of the two public ones. -/
theorem C147_texts_read (E : Ext) (t : Bytes) (k : ExtendedKey) :
    owDecode E t = .ok k ↔
      k.parentFP.length = 4 ∧ k.chainCode.length = 32 ∧
        ((k.isPrivate = true ∧ asc "owprv" <+: t ∧ IsKeyText E.H owprvPrefix (keyBody E.ids k) t) ∨
         (k.isPrivate = false ∧ asc "owpub" <+: t ∧
          (IsKeyText E.H owpubPrefix (keyBody E.ids k) t ∨ IsKeyText E.H owpubPrefixBLS (keyBody E.ids k) t))) := by
  refine ⟨owDecode_inv, ?_⟩
  rintro ⟨h1, h2, ⟨hp, hpre, ht⟩ | ⟨hp, hpre, ht⟩⟩
  · have hf := owFields_eq E.ids k h1 h2
    rw [← keyBody_eq, hp] at hf
    unfold owDecode
    rw [if_neg (by simp [prefix_excl hpre (q := asc "owpub") (by decide) (by decide)]),
      if_pos (prefix_isPrefixOf hpre), (keyText_decode ht).1]
    exact hf
  · have hf := owFields_eq E.ids k h1 h2
    rw [← keyBody_eq, hp] at hf
    unfold owDecode
    rw [if_pos (prefix_isPrefixOf hpre)]
    rcases ht with ht | ht
    · rw [(keyText_decode ht).1]
      exact hf
    · obtain ⟨hd, r, hr⟩ := keyText_decode ht
      rw [b58CheckDecode_err E.H t _ owpubPrefix hr (by simp [owpubPrefix, owpubPrefixBLS, cmpPrefix]), hd]
      exact hf

/-- C147 (b). A text read as a private key is the text `OWEncode` writes for that key. -/
theorem C147_private_canonical (E : Ext) (t : Bytes) (k : ExtendedKey) (h : owDecode E t = .ok k)
    (hp : k.isPrivate = true) : owEncode E k = .ok t := by
  obtain ⟨_, _, ⟨_, _, h3⟩ | ⟨h3, _⟩⟩ := owDecode_inv h
  · rw [isKeyText_iff, keyBody_eq] at h3
    unfold owEncode
    rw [if_pos hp]
    exact h3
  · rw [hp] at h3; cases h3

example (E : Ext) : ∃ t k, owDecode E t = .ok k ∧ k.isPrivate = true := by
  obtain ⟨t, _, _, h⟩ := C14_owkey_roundtrip E ⟨1, [1, 2, 3, 4], 7, List.replicate 32 9, List.replicate 32 5, true, 3⟩
    (by refine ⟨rfl, rfl, ?_⟩; simp)
  exact ⟨t, _, h, rfl⟩

/-- C147 (c). Two different texts are never read as the same private key. -/
theorem C147_private_unique (E : Ext) (t t' : Bytes) (k : ExtendedKey) (h : owDecode E t = .ok k)
    (h' : owDecode E t' = .ok k) (hp : k.isPrivate = true) : t = t' := by
  have e1 := C147_private_canonical E t k h hp
  rw [C147_private_canonical E t' k h' hp] at e1
  exact (Res.ok.inj e1).symm

theorem OwKeychain.keyText_disjoint {H : Hashes} {body t : Bytes} (h1 : IsKeyText H owpubPrefix body t)
    (h2 : IsKeyText H owpubPrefixBLS body t) : False := by
  obtain ⟨_, r, hr⟩ := keyText_decode h1
  obtain ⟨_, r', hr'⟩ := keyText_decode h2
  rw [hr] at hr'
  simp [owpubPrefix, owpubPrefixBLS] at hr'

/-- C147 (d). A text read as a public key is the text `OWEncode` writes for that key, unless it is the text under the
public version prefix of the other kind of curves. Missing: those texts, for which it is false (next theorems). -/
theorem C147_public_canonical_partial (E : Ext) (t : Bytes) (k : ExtendedKey) (h : owDecode E t = .ok k)
    (hp : k.isPrivate = false) :
    owEncode E k = .ok t ↔
      ¬ IsKeyText E.H (if k.curveType = E.ids.blsNul ∨ k.curveType = E.ids.blsAug then owpubPrefix else owpubPrefixBLS)
        (keyBody E.ids k) t := by
  obtain ⟨_, _, ⟨h3, _⟩ | ⟨_, _, h3⟩⟩ := owDecode_inv h
  · rw [hp] at h3; cases h3
  unfold owEncode
  rw [if_neg (by simp [hp])]
  by_cases hb : isBls E.ids k.curveType = true
  · rw [if_pos hb, if_pos ((isBls_iff _ _).mp hb), ← keyBody_eq, ← isKeyText_iff]
    exact ⟨fun a b => keyText_disjoint b a, fun a => h3.resolve_left a⟩
  · rw [if_neg hb, if_neg (fun c => hb ((isBls_iff _ _).mpr c)), ← keyBody_eq, ← isKeyText_iff]
    exact ⟨fun a b => keyText_disjoint a b, fun a => h3.resolve_right a⟩

/-- C147 (e), the part that fails. Every public key of 33 bytes on a BLS curve is read from a text under the version
prefix of the other curves. `OWEncode` writes another text for it, and that text `OWDecode` rejects. -/
theorem C147_bls_short_violated (E : Ext) (k : ExtendedKey) (hp : k.isPrivate = false)
    (hc : k.curveType = E.ids.blsNul ∨ k.curveType = E.ids.blsAug)
    (h1 : k.parentFP.length = 4) (h2 : k.chainCode.length = 32) (h3 : k.key.length = 33) :
    ∃ t t', owDecode E t = .ok k ∧ owEncode E k = .ok t' ∧ t' ≠ t ∧ owDecode E t' = .err := by
  have hb := (isBls_iff _ _).mpr hc
  have hed := bls_not_ed E.ids k.curveType hb
  have hl : (keyBody E.ids k).length + 4 = 82 := by
    rw [keyBody_eq]; simp [h1, h2, h3, padded, hp, hed]
  obtain ⟨t, e1, _⟩ := b58Check_roundtrip E.H (keyBody E.ids k) owpubPrefix
  obtain ⟨t', e2, _⟩ := b58Check_roundtrip E.H (keyBody E.ids k) owpubPrefixBLS
  have hpre := b58Check_prefix E.H _ owpubPrefix t (asc "owpub") 82 113 531256022 hl (by decide) (by decide)
    (by decide +kernel) (by decide +kernel) (by decide) (by decide +kernel) e1
  refine ⟨t, t', (C147_texts_read E t k).mpr ⟨h1, h2, .inr ⟨hp, hpre, .inl ((isKeyText_iff _ _ _ _).mpr e1)⟩⟩, ?_, ?_, ?_⟩
  · unfold owEncode
    rw [if_neg (by simp [hp]), if_pos hb, ← keyBody_eq]
    exact e2
  · rintro rfl
    exact keyText_disjoint ((isKeyText_iff _ _ _ _).mpr e1) ((isKeyText_iff _ _ _ _).mpr e2)
  · have hpre' := b58Check_prefix E.H _ owpubPrefixBLS t' (asc "7ZAz3") 82 114 74176144 hl (by decide) (by decide)
      (by decide +kernel) (by decide +kernel) (by decide) (by decide +kernel) e2
    unfold owDecode
    rw [if_neg (by simp [prefix_excl hpre' (q := asc "owpub") (by decide) (by decide)]),
      if_neg (by simp [prefix_excl hpre' (q := asc "owprv") (by decide) (by decide)])]

example (E : Ext) : ∃ k : ExtendedKey, k.isPrivate = false ∧ (k.curveType = E.ids.blsNul ∨ k.curveType = E.ids.blsAug) ∧
    k.parentFP.length = 4 ∧ k.chainCode.length = 32 ∧ k.key.length = 33 :=
  ⟨⟨1, [1, 2, 3, 4], 7, List.replicate 32 9, List.replicate 33 5, false, E.ids.blsNul⟩, rfl, .inl rfl, rfl, rfl, rfl⟩

/-- C147 (f), the part that fails. Every public key of 48 bytes on a curve that is neither a BLS curve nor one of the
zero-padded ones is read from a text under the version prefix of the BLS curves. `OWEncode` writes another text for
it, and that text `OWDecode` rejects. -/
theorem C147_long_plain_violated (E : Ext) (k : ExtendedKey) (hp : k.isPrivate = false)
    (hc : k.curveType ≠ E.ids.blsNul ∧ k.curveType ≠ E.ids.blsAug)
    (hc2 : k.curveType ≠ E.ids.ed25519 ∧ k.curveType ≠ E.ids.x25519 ∧ k.curveType ≠ E.ids.curve25519Sha256)
    (h1 : k.parentFP.length = 4) (h2 : k.chainCode.length = 32) (h3 : k.key.length = 48) :
    ∃ t t', owDecode E t = .ok k ∧ owEncode E k = .ok t' ∧ t' ≠ t ∧ owDecode E t' = .err := by
  have hb : isBls E.ids k.curveType = false := by
    by_contra hh
    rcases (isBls_iff _ _).mp (by simpa using hh) with h | h
    · exact hc.1 h
    · exact hc.2 h
  have hed : edLike E.ids k.curveType = false := by
    by_contra hh
    rcases (edLike_iff _ _).mp (by simpa using hh) with h | h | h
    · exact hc2.1 h
    · exact hc2.2.1 h
    · exact hc2.2.2 h
  have hl : (keyBody E.ids k).length + 4 = 97 := by
    rw [keyBody_eq]; simp [h1, h2, h3, padded, hp, hed]
  obtain ⟨t', e1, _⟩ := b58Check_roundtrip E.H (keyBody E.ids k) owpubPrefix
  obtain ⟨t, e2, _⟩ := b58Check_roundtrip E.H (keyBody E.ids k) owpubPrefixBLS
  have hpre := b58Check_prefix E.H _ owpubPrefixBLS t (asc "owpub") 97 134 531256022 hl (by decide) (by decide)
    (by decide +kernel) (by decide +kernel) (by decide) (by decide +kernel) e2
  refine ⟨t, t', (C147_texts_read E t k).mpr ⟨h1, h2, .inr ⟨hp, hpre, .inr ((isKeyText_iff _ _ _ _).mpr e2)⟩⟩, ?_, ?_, ?_⟩
  · unfold owEncode
    rw [if_neg (by simp [hp]), if_neg (by simp [hb]), ← keyBody_eq]
    exact e1
  · rintro rfl
    exact keyText_disjoint ((isKeyText_iff _ _ _ _).mpr e1) ((isKeyText_iff _ _ _ _).mpr e2)
  · have hpre' := b58Check_prefix E.H _ owpubPrefix t' (asc "6oE7o") 97 134 65601758 hl (by decide) (by decide)
      (by decide +kernel) (by decide +kernel) (by decide) (by decide +kernel) e1
    unfold owDecode
    rw [if_neg (by simp [prefix_excl hpre' (q := asc "owpub") (by decide) (by decide)]),
      if_neg (by simp [prefix_excl hpre' (q := asc "owprv") (by decide) (by decide)])]

example (E : Ext) : ∃ k : ExtendedKey, k.isPrivate = false ∧
    (k.curveType ≠ E.ids.blsNul ∧ k.curveType ≠ E.ids.blsAug) ∧
    (k.curveType ≠ E.ids.ed25519 ∧ k.curveType ≠ E.ids.x25519 ∧ k.curveType ≠ E.ids.curve25519Sha256) ∧
    k.parentFP.length = 4 ∧ k.chainCode.length = 32 ∧ k.key.length = 48 := by
  have hd := E.ids.distinct
  simp only [List.nodup_cons, List.mem_cons, List.not_mem_nil, or_false, not_or] at hd
  refine ⟨⟨1, [1, 2, 3, 4], 7, List.replicate 32 9, List.replicate 48 5, false, E.ids.ed25519Normal⟩, rfl, ?_, ?_,
    rfl, rfl, rfl⟩ <;> simp_all

/-- C14, exactly: the text `OWEncode` writes for a key, whatever its fields, is read back as that key if and only if
the fingerprint has four bytes, the chain code 32, and the text begins with `owprv` or `owpub` as the privacy flag
says. -/
theorem C14_read_back_exact (E : Ext) (k : ExtendedKey) (t : Bytes) (h : owEncode E k = .ok t) :
    owDecode E t = .ok k ↔ k.parentFP.length = 4 ∧ k.chainCode.length = 32 ∧
      (if k.isPrivate then asc "owprv" else asc "owpub") <+: t := by
  rw [C147_texts_read]
  unfold owEncode at h
  rw [← keyBody_eq] at h
  dsimp only at h
  by_cases hp : k.isPrivate = true
  · rw [if_pos hp] at h
    simp [hp, (isKeyText_iff _ _ _ _).mpr h]
  · have hp' : k.isPrivate = false := by simpa using hp
    rw [if_neg hp] at h
    split at h <;> simp [hp', (isKeyText_iff _ _ _ _).mpr h]

end Verif
