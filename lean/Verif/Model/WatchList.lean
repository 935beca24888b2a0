import Verif.Model.State

/-!
# Watch lists with pointers

`struct VARRECORD`, /repo/src/Variable.h:32-39, `addRecord`, `removeRecord` and the destructor, /repo/src/Variable.cc:68-142,
on a memory of records.  In `Model/State.lean` a watch list is the list of its clause numbers; here it is a head pointer
and records linked in both directions.

A pointer is an address or null (`none`).  Reading, writing or freeing an address that is not allocated is `ub`.  `new`
gives an address that is not allocated; which one is a parameter.  `ATOMWATCHPOS[d]` and `ATOMWATCHNEG[d]` of all
variables are one table of head pointers, indexed by the literal.
-/

namespace Mvl

/-- `struct VARRECORD`. -/
structure VarRecord where
  c_num : Nat
  next  : Option Nat
  prev  : Option Nat
deriving DecidableEq, Repr

/-- The records allocated and the head pointers. -/
structure WMem where
  mem  : Nat → Option VarRecord
  head : Lit → Option Nat

namespace WMem

/-- After the constructor, /repo/src/Variable.cc:37-65: null pointers. -/
def empty : WMem := ⟨fun _ => none, fun _ => none⟩

/-- `*p`, `ub` when not allocated. -/
def read (h : WMem) (p : Nat) : Res VarRecord :=
  match h.mem p with
  | some r => .ok r
  | none => .ub

/-- `*p = f(*p)`. -/
def modify (h : WMem) (p : Nat) (f : VarRecord → VarRecord) : Res WMem :=
  match h.mem p with
  | some r => .ok { h with mem := upd h.mem p (some (f r)) }
  | none => .ub

/-- `delete p` for a pointer that is not null. -/
def free (h : WMem) (p : Nat) : Res WMem :=
  match h.mem p with
  | some _ => .ok { h with mem := upd h.mem p none }
  | none => .ub

/-- `addRecord`, /repo/src/Variable.cc:102-124; `p` is the address given by `new`. -/
def addRecord (h : WMem) (c_id : Nat) (l : Lit) (p : Nat) : Res WMem :=
  let h1 : WMem := { h with mem := upd h.mem p (some ⟨c_id, h.head l, none⟩) }
  match h1.head l with
  | some q => do
    let h2 ← h1.modify q fun r => { r with prev := some p }
    .ok { h2 with head := upd h2.head l (some p) }
  | none => .ok { h1 with head := upd h1.head l (some p) }

/-- /repo/src/Variable.cc:129-136. -/
def unlinkPrev (h : WMem) (rec : Nat) (l : Lit) : Res WMem := do
  let r ← h.read rec
  match r.prev with
  | some q => h.modify q fun x => { x with next := r.next }
  | none => .ok { h with head := upd h.head l r.next }

/-- /repo/src/Variable.cc:137-139. -/
def unlinkNext (h : WMem) (rec : Nat) : Res WMem := do
  let r ← h.read rec
  match r.next with
  | some q => h.modify q fun x => { x with prev := r.prev }
  | none => .ok h

/-- `removeRecord`, /repo/src/Variable.cc:127-142. -/
def removeRecord (h : WMem) (rec : Nat) (l : Lit) : Res WMem := do
  let h1 ← h.unlinkPrev rec l
  let h2 ← h1.unlinkNext rec
  h2.free rec

/-- `while(temp) { temp2 = temp; temp = temp->next; delete temp2; }`, /repo/src/Variable.cc:83-88. -/
def freeAll (h : WMem) : Nat → Option Nat → Res WMem
  | _, none => .ok h
  | 0, some _ => .fuel
  | fuel + 1, some p => do
    let r ← h.read p
    let h1 ← h.free p
    freeAll h1 fuel r.next

/-- The destructor for one literal: the loop, then `delete ATOMWATCHPOS[i]`, /repo/src/Variable.cc:81-88, 96. -/
def destroy (h : WMem) (fuel : Nat) (l : Lit) : Res WMem := do
  let h1 ← h.freeAll fuel (h.head l)
  match h1.head l with
  | some p => h1.free p
  | none => .ok h1

end WMem

end Mvl
