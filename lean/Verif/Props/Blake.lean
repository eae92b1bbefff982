import Verif.Lemmas.BlakePad

/-! C85, C86: the BLAKE-256 and BLAKE-224 hashes of `addressEncoder/blake256`. -/

namespace Verif
open Blake

/-- The specification determines the hash. -/
theorem C85_blake256_unique (salt : List UInt32) (m a b : Bytes) (ha : Spec.Blake.IsBlake256 salt m a) (hb : Spec.Blake.IsBlake256 salt m b) :
    a = b := by
  obtain ⟨i, p, hi, hp, rfl⟩ := ha
  obtain ⟨j, q, hj, hq, rfl⟩ := hb
  rw [iv_unique (fun _ h => h) hi hj, padded_unique hp hq]

/-- The specification determines the hash. -/
theorem C85_blake224_unique (salt : List UInt32) (m a b : Bytes) (ha : Spec.Blake.IsBlake224 salt m a) (hb : Spec.Blake.IsBlake224 salt m b) :
    a = b := by
  obtain ⟨i, p, hi, hp, rfl⟩ := ha
  obtain ⟨j, q, hj, hq, rfl⟩ := hb
  rw [iv_unique (fun _ h => h) hi hj, padded_unique hp hq]

/-- C85: `New`, `Write` and `Sum` compute BLAKE-256 of every message of less than 2^64 bits, behind the bytes given to `Sum`. -/
theorem C85_blake256 (m inp : Bytes) (hm : 8 * m.length < 2 ^ 64) :
    ∃ out, sum (write new m) inp = inp ++ out ∧ out.length = 32 ∧ Spec.Blake.IsBlake256 [0, 0, 0, 0] m out := by
  obtain ⟨out, h1, h2, h3⟩ := absorbed256 (absorbed_write (p := m) fresh_new.absorbed) (by simpa using hm)
  exact ⟨out, h3 inp, h1, by simpa using h2⟩

/-- C85: `New224`, `Write` and `Sum` compute BLAKE-224. -/
theorem C85_blake224 (m inp : Bytes) (hm : 8 * m.length < 2 ^ 64) :
    ∃ out, sum (write new224 m) inp = inp ++ out ∧ out.length = 28 ∧ Spec.Blake.IsBlake224 [0, 0, 0, 0] m out := by
  obtain ⟨out, h1, h2, h3⟩ := absorbed224 (absorbed_write (p := m) fresh_new224.absorbed) (by simpa using hm)
  exact ⟨out, h3 inp, h1, by simpa using h2⟩

/-- C85: `NewSalt` accepts exactly the salts of sixteen bytes, panics for others, and computes BLAKE-256 with that salt. -/
theorem C85_blake256_salt (salt m inp : Bytes) (hm : 8 * m.length < 2 ^ 64) :
    (salt.length ≠ 16 → newSalt salt = .panic) ∧
    (salt.length = 16 → ∃ d out, newSalt salt = .ok d ∧ sum (write d m) inp = inp ++ out ∧ out.length = 32 ∧
      Spec.Blake.IsBlake256 (Spec.Blake.saltWords salt) m out) := by
  refine ⟨fun h => by rw [newSalt, setSalt, if_pos h], fun h => ?_⟩
  have hd : newSalt salt = .ok { new with s := [word salt, word (salt.drop 4), word (salt.drop 8), word (salt.drop 12)] } := by
    rw [newSalt, setSalt, if_neg (by simpa using h)]
  obtain ⟨out, h1, h2, h3⟩ := absorbed256 (absorbed_write (p := m) (newSalt_iff salt _ hd).2.absorbed) (by simpa using hm)
  exact ⟨_, out, hd, h3 inp, h1, by simpa using h2⟩

/-- C85: `New224Salt` accepts exactly the salts of sixteen bytes, panics for others, and computes BLAKE-224 with that salt. -/
theorem C85_blake224_salt (salt m inp : Bytes) (hm : 8 * m.length < 2 ^ 64) :
    (salt.length ≠ 16 → new224Salt salt = .panic) ∧
    (salt.length = 16 → ∃ d out, new224Salt salt = .ok d ∧ sum (write d m) inp = inp ++ out ∧ out.length = 28 ∧
      Spec.Blake.IsBlake224 (Spec.Blake.saltWords salt) m out) := by
  refine ⟨fun h => by rw [new224Salt, setSalt, if_pos h], fun h => ?_⟩
  have hd : new224Salt salt = .ok { new224 with s := [word salt, word (salt.drop 4), word (salt.drop 8), word (salt.drop 12)] } := by
    rw [new224Salt, setSalt, if_neg (by simpa using h)]
  obtain ⟨out, h1, h2, h3⟩ := absorbed224 (absorbed_write (p := m) (new224Salt_iff salt _ hd).2.absorbed) (by simpa using hm)
  exact ⟨_, out, hd, h3 inp, h1, by simpa using h2⟩

/-- C85: `DoubleBlake256` is BLAKE-256 of BLAKE-256. -/
theorem C85_double (m : Bytes) (hm : 8 * m.length < 2 ^ 64) :
    ∃ one, Spec.Blake.IsBlake256 [0, 0, 0, 0] m one ∧ Spec.Blake.IsBlake256 [0, 0, 0, 0] one (doubleBlake256 m) := by
  obtain ⟨one, h1, l1, s1⟩ := C85_blake256 m [] hm
  obtain ⟨two, h2, l2, s2⟩ := C85_blake256 one [] (by omega)
  refine ⟨one, s1, ?_⟩
  rw [doubleBlake256, h1, List.nil_append, h2, List.nil_append]
  exact s2

/-- The hypotheses are met by the empty message, and by one whose padding needs a block of its own. -/
example : 8 * ([] : Bytes).length < 2 ^ 64 ∧ 8 * (List.replicate 60 (7 : UInt8)).length < 2 ^ 64 := by decide
/-- A salt of sixteen bytes is accepted. -/
example : ∃ d, newSalt (List.replicate 16 1) = .ok d := ⟨_, rfl⟩

/-! ### C86: histories of calls -/

/-- A call on a digest that changes it. `Sum` works on a copy. -/
inductive Blake.Call
  /-- `Write`. -/
  | write (p : Bytes)
  /-- `Reset`. -/
  | reset

/-- The digest after a call. -/
def Blake.Call.run (d : Digest) : Call → Digest
  | .write p => Blake.write d p
  | .reset => Blake.reset d

/-- The message of a history: everything written since the last reset. -/
def Spec.Blake.message : List Blake.Call → Bytes → Bytes
  | [], m => m
  | .write p :: r, m => message r (m ++ p)
  | .reset :: r, _ => message r []

theorem Blake.history {d : Digest} {z : Nat} {s : List UInt32} {m : Bytes} (h : Absorbed d (start z s) m) :
    ∀ calls : List Call, Absorbed (calls.foldl Call.run d) (start z s) (Spec.Blake.message calls m) := by
  intro calls
  induction calls generalizing d m with
  | nil => exact h
  | cons c r ih =>
    cases c with
    | write p => exact ih (absorbed_write h)
    | reset => exact ih h.reset.absorbed

/-- C86: after any history of `Write` and `Reset` calls, `Sum` is BLAKE-256 of what was written since the last `Reset`, however it was cut into
pieces. -/
theorem C86_history (calls : List Call) (inp : Bytes) (hm : 8 * (Spec.Blake.message calls []).length < 2 ^ 64) :
    (∃ out, sum (calls.foldl Call.run new) inp = inp ++ out ∧ Spec.Blake.IsBlake256 [0, 0, 0, 0] (Spec.Blake.message calls []) out) ∧
    (∃ out, sum (calls.foldl Call.run new224) inp = inp ++ out ∧ Spec.Blake.IsBlake224 [0, 0, 0, 0] (Spec.Blake.message calls []) out) := by
  obtain ⟨o1, _, a1, b1⟩ := absorbed256 (history fresh_new.absorbed calls) hm
  obtain ⟨o2, _, a2, b2⟩ := absorbed224 (history fresh_new224.absorbed calls) hm
  exact ⟨⟨o1, b1 inp, a1⟩, ⟨o2, b2 inp, a2⟩⟩

/-- C86 with a salt, which `Reset` keeps. -/
theorem C86_history_salt (salt : Bytes) (calls : List Call) (inp : Bytes) (hm : 8 * (Spec.Blake.message calls []).length < 2 ^ 64) :
    (∀ d, newSalt salt = .ok d → ∃ out, sum (calls.foldl Call.run d) inp = inp ++ out ∧
      Spec.Blake.IsBlake256 (Spec.Blake.saltWords salt) (Spec.Blake.message calls []) out) ∧
    (∀ d, new224Salt salt = .ok d → ∃ out, sum (calls.foldl Call.run d) inp = inp ++ out ∧
      Spec.Blake.IsBlake224 (Spec.Blake.saltWords salt) (Spec.Blake.message calls []) out) := by
  refine ⟨fun d hd => ?_, fun d hd => ?_⟩
  · obtain ⟨o, _, a, b⟩ := absorbed256 (history (newSalt_iff salt d hd).2.absorbed calls) hm
    exact ⟨o, b inp, a⟩
  · obtain ⟨o, _, a, b⟩ := absorbed224 (history (new224Salt_iff salt d hd).2.absorbed calls) hm
    exact ⟨o, b inp, a⟩

/-- C86: how the input is cut never matters, whatever its length: two histories with the same message give the same sum. -/
theorem C86_chunks (a b : List Call) (inp : Bytes) (h : Spec.Blake.message a [] = Spec.Blake.message b []) :
    sum (a.foldl Call.run new) inp = sum (b.foldl Call.run new) inp ∧ sum (a.foldl Call.run new224) inp = sum (b.foldl Call.run new224) inp := by
  have a1 := history fresh_new.absorbed a
  have a2 := history fresh_new224.absorbed a
  rw [h] at a1 a2
  exact ⟨Rep.sum a1 (history fresh_new.absorbed b) inp, Rep.sum a2 (history fresh_new224.absorbed b) inp⟩

/-- Two different histories with the same message. -/
example : Spec.Blake.message [.write [9], .reset, .write [1, 2], .write [3]] [] = Spec.Blake.message [.write [1], .write [2, 3]] [] := rfl

end Verif
