import Verif.Model.InPlace

/-!
# Polar diagrams as objects

The arrays held by tables and point clouds, the arrays of the caller, and which of them are the same object. Programs
create arrays and diagrams, read the properties of diagrams, and change arrays and diagrams; each statement is wrapped in
`try`, so that a program goes on after an exception. Arrays are numpy arrays of floats.
-/

namespace Verif.DiaHeap

open Verif.Interp (Pt)

variable {K : Type}

/-- The objects of a program: arrays with one and two dimensions, arrays of points, lists of strings and lists of diagrams;
`PolarDiagramTable` with its three arrays (`/repo/hrosailing/polardiagram/_polardiagramtable.py:163-173`),
`PolarDiagramPointcloud` with its array (`/repo/hrosailing/polardiagram/_polardiagrampointcloud.py:141`), and
`PolarDiagramMultiSails` with its two lists (`/repo/hrosailing/polardiagram/_polardiagrammultisails.py:61-62`). -/
inductive Cell (K : Type)
  | vec (l : List K)
  | mat (rows : List (List K))
  | pts (l : List (Pt K))
  | names (l : List String)
  | refs (l : List Nat)
  | table (ws wa bsps : Nat)
  | cloud (points : Nat)
  | multi (sails diagrams : Nat)

/-- The objects and the variables of a program which uses the attributes of
`/repo/hrosailing/polardiagram/_polardiagramtable.py:163-173` and of its siblings, in the order of
their creation. -/
structure St (K : Type) where
  heap : List (Cell K)
  vars : List Nat

/-- What can be observed of a variable, e.g. by the properties of `/repo/hrosailing/polardiagram/_polardiagramtable.py:332-366`. -/
inductive Val (K : Type)
  | vec (l : List K)
  | mat (rows : List (List K))
  | pts (l : List (Pt K))
  | names (l : List String)
  | table (t : Table K)
  | cloud (l : List (Pt K))
  | multi (sails : List String) (diagrams : List (Option (Table K)))
deriving DecidableEq

/-- The table with the given reference (`/repo/hrosailing/polardiagram/_polardiagramtable.py:163-167`). -/
def tableAt (h : List (Cell K)) (r : Nat) : Option (Table K) :=
  match h[r]? with
  | some (.table a b c) =>
    match h[a]?, h[b]?, h[c]? with
    | some (.vec ws), some (.vec wa), some (.mat bsps) => some ⟨ws, wa, bsps⟩
    | _, _, _ => none
  | _ => none

/-- The observable value of the object with the given reference, e.g. by the properties of
`/repo/hrosailing/polardiagram/_polardiagramtable.py:332-366`. -/
def valOf (h : List (Cell K)) (r : Nat) : Option (Val K) :=
  match h[r]? with
  | some (.vec l) => some (.vec l)
  | some (.mat l) => some (.mat l)
  | some (.pts l) => some (.pts l)
  | some (.names l) => some (.names l)
  | some (.table _ _ _) => (tableAt h r).map .table
  | some (.cloud a) =>
    match h[a]? with
    | some (.pts l) => some (.cloud l)
    | _ => none
  | some (.multi a b) =>
    match h[a]?, h[b]? with
    | some (.names l), some (.refs ds) => some (.multi l (ds.map (tableAt h)))
    | _, _ => none
  | _ => none

/-- The statements; arguments are numbers of variables. They call the methods in
`/repo/hrosailing/polardiagram/_polardiagramtable.py:143-167`, `:332-366`, `:493-661`,
`/repo/hrosailing/polardiagram/_polardiagrampointcloud.py:133-141`, `:239-326` and
`/repo/hrosailing/polardiagram/_polardiagrammultisails.py:50-66`. -/
inductive Action (K : Type)
  | newVec (l : List K)
  | newMat (rows : List (List K))
  | newPts (l : List (Pt K))
  /-- The caller changes an array in place. -/
  | editVec (x : Nat) (f : List K → List K)
  | editMat (x : Nat) (f : List (List K) → List (List K))
  | editPts (x : Nat) (f : List (Pt K) → List (Pt K))
  | mkTable (ws wa bsps : Nat)
  | windSpeeds (d : Nat)
  | windAngles (d : Nat)
  | boatSpeeds (d : Nat)
  | changeEntries (d : Nat) (new : Table.NewBsps K) (ws wa : Option (List K))
  | symTable (d : Nat)
  | mkCloud (x : Nat)
  | points (c : Nat)
  | addPoints (c x : Nat)
  | symCloud (c : Nat)
  | mkMulti (diagrams : List Nat) (sails : List String)
  | sails (m : Nat)
  | editNames (x : Nat) (f : List String → List String)

section
variable [Field K] [LinearOrder K] [FloorRing K]

/-- A new object bound to a new variable, e.g. by the properties of `/repo/hrosailing/polardiagram/_polardiagramtable.py:332-366`. -/
def St.alloc (st : St K) (c : Cell K) : St K := ⟨st.heap ++ [c], st.vars ++ [st.heap.length]⟩

/-- A new table with new arrays (`/repo/hrosailing/polardiagram/_polardiagramtable.py:163-167`, `:801-805`: `np.array`
copies). -/
def St.allocTable (st : St K) (t : Table K) : St K :=
  let n := st.heap.length
  ⟨st.heap ++ [.vec t.ws, .vec t.wa, .mat t.bsps, .table n (n + 1) (n + 2)], st.vars ++ [n + 3]⟩

/-- A new point cloud with a new array (`/repo/hrosailing/polardiagram/_polardiagrampointcloud.py:137-141`: selecting with
`np.where` copies). -/
def St.allocCloud (st : St K) (l : List (Pt K)) : St K :=
  let n := st.heap.length
  ⟨st.heap ++ [.pts l, .cloud n], st.vars ++ [n + 1]⟩

/-- Changing an object in place, e.g. `/repo/hrosailing/polardiagram/_polardiagramtable.py:661`, `:753`. -/
def St.write (st : St K) (r : Nat) (c : Cell K) : St K := ⟨st.heap.set r c, st.vars⟩

/-- `PolarDiagramTable(ws, wa, bsps)` (`/repo/hrosailing/polardiagram/_polardiagramtable.py:143-167`): `asarray_chkfinite`
does not copy, `res %= 360` writes to the array of wind angles, and the wind speeds are copied afterwards. -/
def St.mkTable (st : St K) (rx ry : Nat) (ws wa : List K) (bsps : List (List K)) : Res (St K) :=
  match Table.buildWs (.values ws) with
  | .error e => (st, some e)
  | .ok _ =>
    let st := st.write ry (.vec (Table.buildWaArray wa).2)
    match (Table.buildWaArray wa).1 with
    | .error e => (st, some e)
    | .ok wa =>
      match st.heap[rx]? with
      | some (.vec ws) =>
        if Table.goodShape bsps ws wa then (st.allocTable (Table.sortTable ws wa bsps), none) else (st, some .valueError)
      | _ => (st, some .otherError)

/-- `add_points` (`/repo/hrosailing/polardiagram/_polardiagrampointcloud.py:301-326`): `new_pts[:, 1] %= 360` writes to the
array of the caller, `np.row_stack` makes a new array. -/
def St.addPoints (st : St K) (rc rx : Nat) (l new : List (Pt K)) : Res (St K) :=
  let p := Cloud.addPointsArray l new
  let st := st.write rx (.pts p.2)
  match p.1.2 with
  | some e => (st, some e)
  | none => (⟨(st.heap ++ [Cell.pts p.1.1]).set rc (.cloud st.heap.length), st.vars⟩, none)

/-- The references of the objects of the variables (arguments of
`/repo/hrosailing/polardiagram/_polardiagramtable.py:143`). -/
def St.ref (st : St K) (x : Nat) : Option Nat := st.vars[x]?

/-- The object of a variable (arguments of `/repo/hrosailing/polardiagram/_polardiagramtable.py:143`). -/
def St.cell (st : St K) (x : Nat) : Option (Cell K) := st.vars[x]?.bind (st.heap[·]?)

/-- The statements. Properties return copies (`/repo/hrosailing/polardiagram/_polardiagramtable.py:332-340`, `:363-366`,
`/repo/hrosailing/polardiagram/_polardiagrampointcloud.py:239-242`); `symmetrize` makes a new diagram, but returns the
diagram itself for an empty point cloud (`/repo/hrosailing/polardiagram/_polardiagrampointcloud.py:283-284`); the property
`sails` returns the list itself (`/repo/hrosailing/polardiagram/_polardiagrammultisails.py:64-66`). Arguments of the wrong
kind are not considered; they raise some exception. `mkMulti` is given as many names as diagrams
(`/repo/hrosailing/polardiagram/_polardiagrammultisails.py:50-62`: `list` copies the outer lists, not the diagrams). -/
def St.step (st : St K) : Action K → Res (St K)
  | .newVec l => (st.alloc (.vec l), none)
  | .newMat l => (st.alloc (.mat l), none)
  | .newPts l => (st.alloc (.pts l), none)
  | .editVec x f =>
    match st.ref x, st.cell x with
    | some r, some (.vec l) => (st.write r (.vec (f l)), none)
    | _, _ => (st, some .otherError)
  | .editMat x f =>
    match st.ref x, st.cell x with
    | some r, some (.mat l) => (st.write r (.mat (f l)), none)
    | _, _ => (st, some .otherError)
  | .editPts x f =>
    match st.ref x, st.cell x with
    | some r, some (.pts l) => (st.write r (.pts (f l)), none)
    | _, _ => (st, some .otherError)
  | .editNames x f =>
    match st.ref x, st.cell x with
    | some r, some (.names l) => (st.write r (.names (f l)), none)
    | _, _ => (st, some .otherError)
  | .mkTable x y z =>
    match st.ref x, st.ref y, st.cell x, st.cell y, st.cell z with
    | some rx, some ry, some (.vec ws), some (.vec wa), some (.mat bsps) => st.mkTable rx ry ws wa bsps
    | _, _, _, _, _ => (st, some .otherError)
  | .windSpeeds d =>
    match (st.ref d).bind (tableAt st.heap) with
    | some t => (st.alloc (.vec t.ws), none)
    | none => (st, some .otherError)
  | .windAngles d =>
    match (st.ref d).bind (tableAt st.heap) with
    | some t => (st.alloc (.vec t.wa), none)
    | none => (st, some .otherError)
  | .boatSpeeds d =>
    match (st.ref d).bind (tableAt st.heap) with
    | some t => (st.alloc (.mat t.bsps), none)
    | none => (st, some .otherError)
  | .changeEntries d new ws wa =>
    match (st.ref d).bind (tableAt st.heap), st.cell d with
    | some t, some (.table _ _ c) =>
      let p := Table.changeEntries t new ws wa
      (st.write c (.mat p.1.bsps), p.2)
    | _, _ => (st, some .otherError)
  | .symTable d =>
    match (st.ref d).bind (tableAt st.heap) with
    | some t =>
      match Table.symmetrize t with
      | .ok t => (st.allocTable t, none)
      | .error e => (st, some e)
    | none => (st, some .otherError)
  | .mkCloud x =>
    match st.cell x with
    | some (.pts l) => (st.allocCloud (Cloud.init l), none)
    | _ => (st, some .otherError)
  | .points c =>
    match (st.ref c).bind (valOf st.heap) with
    | some (.cloud l) => (st.alloc (.pts l), none)
    | _ => (st, some .otherError)
  | .addPoints c x =>
    match st.ref c, st.ref x, (st.ref c).bind (valOf st.heap), st.cell x with
    | some rc, some rx, some (.cloud l), some (.pts new) => st.addPoints rc rx l new
    | _, _, _, _ => (st, some .otherError)
  | .symCloud c =>
    match st.ref c, (st.ref c).bind (valOf st.heap) with
    | some r, some (.cloud l) =>
      if l.isEmpty then (⟨st.heap, st.vars ++ [r]⟩, none) else (st.allocCloud (Cloud.symmetrize l), none)
    | _, _ => (st, some .otherError)
  | .mkMulti ds sails =>
    match ds.mapM st.ref with
    | some rs =>
      let n := st.heap.length
      (⟨st.heap ++ [.names sails, .refs rs, .multi n (n + 1)], st.vars ++ [n + 2]⟩, none)
    | none => (st, some .otherError)
  | .sails m =>
    match st.cell m with
    | some (.multi a _) => (⟨st.heap, st.vars ++ [a]⟩, none)
    | _ => (st, some .otherError)

/-- A program with statements for `/repo/hrosailing/polardiagram/_polardiagramtable.py:143-167` and the others of `Action`: the state
afterwards and the exceptions of the statements. -/
def St.run (st : St K) : List (Action K) → St K × List (Option PyErr)
  | [] => (st, [])
  | a :: as =>
    let p := st.step a
    let q := p.1.run as
    (q.1, p.2 :: q.2)

/-- The observable values of all variables (`/repo/hrosailing/polardiagram/_polardiagramtable.py:332-366`). -/
def St.view (st : St K) : List (Option (Val K)) := st.vars.map (valOf st.heap)

end

end Verif.DiaHeap
