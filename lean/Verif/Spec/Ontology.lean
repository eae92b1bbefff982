import Verif.Model.Base

/-! The part of the Ontology virtual machine (a NEO VM) that a native-contract call needs, written from the VM's documentation and
independently of the package: instruction reader, stack machine with mutable structures, the `Ontology.Native.Invoke` service. -/

namespace Verif.Spec.OntVM
open Verif

/-- Two's complement, little endian. -/
def twos (b : Bytes) : Int := if 256 ^ b.length ≤ 2 * leNat b then (leNat b : Int) - 256 ^ b.length else leNat b

/-- Stack items: byte strings, integers, references to a structure or array on the heap. -/
inductive Item where
  | bytes (b : Bytes)
  | int (i : Int)
  | ref (n : Nat)
deriving DecidableEq

/-- The number an item denotes where a number is expected. -/
def Item.num : Item → Option Int
  | .bytes b => some (twos b)
  | .int i => some i
  | .ref _ => none

inductive Instr where
  | push (i : Item)
  | newStruct | toAlt | dupFromAlt | fromAlt | append | pack
  | sysCall (name : Bytes)
deriving DecidableEq

/-- The first `n` bytes as operand. -/
def operand (n : Nat) (b : Bytes) (f : Bytes → Instr) : Option (Instr × Bytes) :=
  if b.length < n then none else some (f (b.take n), b.drop n)

def pushN (n : Nat) (b : Bytes) : Option (Instr × Bytes) := operand n b (fun d => .push (.bytes d))

/-- Read one instruction. -/
def readInstr : Bytes → Option (Instr × Bytes)
  | [] => none
  | o :: r =>
    if o.toNat ≤ 0x4B then pushN o.toNat r
    else if o = 0x4C then (if r.length < 1 then none else pushN (leNat (r.take 1)) (r.drop 1))
    else if o = 0x4D then (if r.length < 2 then none else pushN (leNat (r.take 2)) (r.drop 2))
    else if o = 0x4E then (if r.length < 4 then none else pushN (leNat (r.take 4)) (r.drop 4))
    else if o = 0x4F then some (.push (.int (-1)), r)
    else if 0x51 ≤ o.toNat ∧ o.toNat ≤ 0x60 then some (.push (.int (o.toNat - 0x50 : Nat)), r)
    else if o = 0x68 then (if r.length < 1 then none else operand (leNat (r.take 1)) (r.drop 1) .sysCall)
    else if o = 0x6A then some (.dupFromAlt, r)
    else if o = 0x6B then some (.toAlt, r)
    else if o = 0x6C then some (.fromAlt, r)
    else if o = 0xC1 then some (.pack, r)
    else if o = 0xC6 then some (.newStruct, r)
    else if o = 0xC8 then some (.append, r)
    else none

/-- `b` consists of exactly these instructions. -/
inductive Script : Bytes → List Instr → Prop where
  | nil : Script [] []
  | cons {b r : Bytes} {i : Instr} {is : List Instr} : readInstr b = some (i, r) → Script r is → Script b (i :: is)

/-- A call of a native contract. -/
structure Call where
  version : Int
  contract : Bytes
  method : Bytes
  args : Item
deriving DecidableEq

structure State where
  stack : List Item
  alt : List Item
  heap : List (List Item)
  calls : List Call
deriving DecidableEq

def init : State := ⟨[], [], [], []⟩

def step : Instr → State → Option State
  | .push i, s => some { s with stack := i :: s.stack }
  | .newStruct, s =>
    match s.stack with
    | i :: st =>
      match i.num with
      | some n => some { s with stack := .ref s.heap.length :: st, heap := s.heap ++ [List.replicate n.toNat (.int 0)] }
      | none => none
    | _ => none
  | .toAlt, s =>
    match s.stack with
    | i :: st => some { s with stack := st, alt := i :: s.alt }
    | [] => none
  | .dupFromAlt, s =>
    match s.alt with
    | i :: _ => some { s with stack := i :: s.stack }
    | [] => none
  | .fromAlt, s =>
    match s.alt with
    | i :: al => some { s with stack := i :: s.stack, alt := al }
    | [] => none
  | .append, s =>
    match s.stack with
    | i :: .ref n :: st =>
      match s.heap[n]? with
      | some l => some { s with stack := st, heap := s.heap.set n (l ++ [i]) }
      | none => none
    | _ => none
  | .pack, s =>
    match s.stack with
    | i :: st =>
      match i.num with
      | some n =>
        if n < 0 ∨ st.length < n.toNat then none
        else some { s with stack := .ref s.heap.length :: st.drop n.toNat, heap := s.heap ++ [st.take n.toNat] }
      | none => none
    | _ => none
  | .sysCall name, s =>
    if name = asc "Ontology.Native.Invoke" then
      match s.stack with
      | v :: .bytes c :: .bytes m :: a :: st =>
        match v.num with
        | some v => some { s with stack := st, calls := s.calls ++ [⟨v, c, m, a⟩] }
        | none => none
      | _ => none
    else none

def exec : List Instr → State → Option State
  | [], s => some s
  | i :: is, s => (step i s).bind (exec is)

/-- Running `script` makes exactly one native call, whose argument is the item `args` in the final heap, and leaves nothing behind. -/
def Runs (script : Bytes) (contract method : Bytes) (args : Item) (heap : List (List Item)) : Prop :=
  ∃ is, Script script is ∧ exec is init = some ⟨[], [], heap, [⟨0, contract, method, args⟩]⟩

/-- The native contracts: twenty bytes, 1 and 2. -/
def ont : Bytes := List.replicate 19 0 ++ [1]
def ong : Bytes := List.replicate 19 0 ++ [2]

/-- The script transfers `amount` of the token of `contract`: the argument of the call is an array with one structure, sender, receiver
and amount. -/
def Transfers (script contract method sender receiver : Bytes) (amount : Int) : Prop :=
  ∃ a l r heap, Runs script contract method (.ref a) heap ∧ heap[a]? = some [.ref l] ∧
    heap[l]? = some [.bytes sender, .bytes receiver, r] ∧ r.num = some amount

/-- The script makes `spender` move `amount` from `sender` to `receiver`: the argument is a structure of these four. -/
def TransfersFrom (script contract spender sender receiver : Bytes) (amount : Int) : Prop :=
  ∃ l r heap, Runs script contract (asc "transferFrom") (.ref l) heap ∧
    heap[l]? = some [.bytes spender, .bytes sender, .bytes receiver, r] ∧ r.num = some amount

end Verif.Spec.OntVM
