import Verif.Model.Table

/-!
# Printing tables, and csv files of tables

Model of `__str__`, `to_csv` (`/repo/hrosailing/polardiagram/_polardiagramtable.py`) and `from_csv`
(`/repo/hrosailing/polardiagram/_reading.py`).
-/

namespace Verif.Table

variable {K : Type} [Field K] [LinearOrder K] [FloorRing K]

/-- The pieces of a printed table (`/repo/hrosailing/polardiagram/_polardiagramtable.py:176`, `:191`, `:196`, `:201`,
`:205`, `:214`). The formatting of the numbers is left out. -/
inductive Tok (K : Type)
  | corner
  | head (ws : K)
  | dots
  | plus
  | angle (wa : K)
  | cell (bsp : K)
  deriving DecidableEq, Repr

/-- `_create_short_table` (`/repo/hrosailing/polardiagram/_polardiagramtable.py:188-207`), by lines. -/
def shortTable (t : Table K) : List (List (Tok K)) :=
  [.corner :: t.ws.map .head, .plus :: t.ws.map fun _ => .plus] ++
    t.wa.zipIdx.map fun (a, i) =>
      .angle a :: (List.range t.ws.length).map fun j => .cell ((t.bsps.getD i []).getD j 0)

/-- `enumerate` over a list with an additional piece before the entry with number 5
(`/repo/hrosailing/polardiagram/_polardiagramtable.py:212-216`, `:232-237`). -/
def withDots (f : Nat → K → Tok K) (wind : List K) : List (Tok K) :=
  wind.zipIdx.flatMap fun (w, j) => if j = 5 then [.dots, f j w] else [f j w]

/-- `_create_long_table` (`/repo/hrosailing/polardiagram/_polardiagramtable.py:209-239`), by lines. -/
def longTable (t : Table K) (wind : List K) : List (List (Tok K)) :=
  [.corner :: withDots (fun _ w => .head w) wind, .plus :: withDots (fun _ _ => .plus) wind] ++
    t.wa.zipIdx.map fun (a, i) =>
      .angle a :: withDots (fun j _ => .cell ((t.bsps.getD i []).getD j 0)) wind

/-- `__str__` (`/repo/hrosailing/polardiagram/_polardiagramtable.py:175-186`), by lines. -/
def str (t : Table K) : List (List (Tok K)) :=
  if t.ws.length ≤ 15 then shortTable t
  else longTable t (t.ws.take 5 ++ t.ws.drop (t.ws.length - 5))

/-! ### csv files -/

/-- The contents of a file (`/repo/hrosailing/polardiagram/_polardiagramtable.py:368-479`). -/
abbrev Text := List Char

/-- `csv_writer.writerow` (`/repo/hrosailing/polardiagram/_polardiagramtable.py:452`, `:474`) with the given delimiter,
for fields which need no quotes. -/
def writeRow (delimiter : Char) (fields : List Text) : Text :=
  [delimiter].intercalate fields ++ ['\r', '\n']

/-- `csv_writer.writerows` (`/repo/hrosailing/polardiagram/_polardiagramtable.py:459`, `:479`). -/
def writeRows (delimiter : Char) (rows : List (List Text)) : Text := rows.flatMap (writeRow delimiter)

/-- The formats of `to_csv` (`/repo/hrosailing/polardiagram/_polardiagramtable.py:430`). -/
inductive Format
  | hro | orc | opencpn | array

/-- The rows of wind angles and boat speeds of `_write_rows`
(`/repo/hrosailing/polardiagram/_polardiagramtable.py:457-459`). -/
def csvRows (print : K → Text) (t : Table K) : List (List Text) :=
  (t.wa.zip t.bsps).map fun p => print p.1 :: p.2.map print

/-- `to_csv` (`/repo/hrosailing/polardiagram/_polardiagramtable.py:430-479`); `print` is the conversion of numbers to
text. -/
def toCsv (print : K → Text) (t : Table K) : Format → Text
  | .orc => writeRows ';' (("twa/tws".toList :: t.ws.map print) ::
      (List.replicate (t.ws.length + 1) (print 0)) :: csvRows print t)
  | .array => writeRows '\t' (("TWA\\TWS".toList :: t.ws.map print) :: csvRows print t)
  | .opencpn => writeRows ',' (("TWA \\ TWS".toList :: t.ws.map print) :: csvRows print t)
  | .hro => writeRows ',' (["PolarDiagramTable".toList] :: ["TWS".toList] :: t.ws.map print :: ["TWA".toList] ::
      t.wa.map print :: ["BSP".toList] :: t.bsps.map (·.map print))

/-- The lines of a file without their ends (`/repo/hrosailing/polardiagram/_reading.py:73`, `:83`). -/
def lines (text : Text) : List Text :=
  let parts := text.splitOn '\n'
  let parts := if parts.getLast? = some [] then parts.dropLast else parts
  parts.map fun l => if l.getLast? = some '\r' then l.dropLast else l

/-- `csv.reader` (`/repo/hrosailing/polardiagram/_reading.py:110`, `:138`) on lines without quotes. -/
def readRows (delimiter : Char) (ls : List Text) : List (List Text) :=
  ls.map fun l => if l = [] then [] else l.splitOn delimiter

/-- List comprehensions with `literal_eval` (`/repo/hrosailing/polardiagram/_reading.py:123`). -/
def parseAll (parse : Text → Except PyErr K) : List Text → Except PyErr (List K)
  | [] => .ok []
  | x :: l =>
    match parse x with
    | .error e => .error e
    | .ok y =>
      match parseAll parse l with
      | .error e => .error e
      | .ok ys => .ok (y :: ys)

/-- The nested list comprehension in `__from_csv__` (`/repo/hrosailing/polardiagram/_polardiagramtable.py:489`). -/
def parseRows (parse : Text → Except PyErr K) : List (List Text) → Except PyErr (List (List K))
  | [] => .ok []
  | x :: l =>
    match parseAll parse x with
    | .error e => .error e
    | .ok y =>
      match parseRows parse l with
      | .error e => .error e
      | .ok ys => .ok (y :: ys)

/-- `_read_wind_angles_and_boat_speeds` (`/repo/hrosailing/polardiagram/_reading.py:126-134`). -/
def readAnglesAndSpeeds (parse : Text → Except PyErr K) : List (List Text) → Except PyErr (List K × List (List K))
  | [] => .ok ([], [])
  | [] :: _ => .error .indexError
  | (x :: row) :: l =>
    match parse (x.filter (· ≠ '°')) with
    | .error e => .error e
    | .ok a =>
      match parseAll (fun f => if f = [] then .ok 0 else parse f) row with
      | .error e => .error e
      | .ok r =>
        match readAnglesAndSpeeds parse l with
        | .error e => .error e
        | .ok (wa, bsps) => .ok (a :: wa, r :: bsps)

/-- The words of a line as found by `np.genfromtxt` (`/repo/hrosailing/polardiagram/_reading.py:105`). -/
def words (l : Text) : List Text :=
  ((l.map fun c => if c = '\t' ∨ c = '\r' then ' ' else c).splitOn ' ').filter fun w => !w.isEmpty

/-- `_read_from_array` (`/repo/hrosailing/polardiagram/_reading.py:104-106`): the first word of the first line is not
used. Lines with different numbers of words raise `ValueError`. Words which are not numbers are errors here; in python
they are read as `nan`. -/
def readArray (parse : Text → Except PyErr K) (ls : List Text) : Except PyErr (List K × List K × List (List K)) :=
  match (ls.map words).filter fun l => !l.isEmpty with
  | [] => .error .indexError
  | header :: rows =>
    if ¬ rows.all (fun r => r.length = header.length) then .error .valueError
    else if rows.isEmpty then .error .indexError
    else
      match parseAll parse header.tail with
      | .error e => .error e
      | .ok ws =>
        match parseRows parse rows with
        | .error e => .error e
        | .ok m => .ok (ws, m.map (·.headD 0), m.map List.tail)

/-- `from_csv` for tables (`/repo/hrosailing/polardiagram/_reading.py:70-143`,
`/repo/hrosailing/polardiagram/_polardiagramtable.py:481-491`); files of other polar diagrams and files with missing
rows raise some other exception. -/
def fromCsv (parse : Text → Except PyErr K) (text : Text) (fmt : Format) : Except PyErr (Table K) :=
  match fmt with
  | .hro =>
    match lines text with
    | [] => .error .otherError
    | first :: ls =>
      if first ≠ "PolarDiagramTable".toList then .error .otherError
      else
        match readRows ',' ls with
        | _ :: ws :: _ :: wa :: _ :: bsps =>
          match parseAll parse ws with
          | .error e => .error e
          | .ok ws =>
            match parseAll parse wa with
            | .error e => .error e
            | .ok wa =>
              match parseRows parse bsps with
              | .error e => .error e
              | .ok bsps => init (.values ws) (.values wa) (some bsps)
        | _ => .error .otherError
  | .array =>
    match readArray parse (lines text) with
    | .error e => .error e
    | .ok (ws, wa, bsps) => init (.values ws) (.values wa) (some bsps)
  | .orc =>
    match readRows ';' (lines text) with
    | header :: _ :: rows =>
      match parseAll parse header.tail with
      | .error e => .error e
      | .ok ws =>
        match readAnglesAndSpeeds parse rows with
        | .error e => .error e
        | .ok (wa, bsps) => init (.values ws) (.values wa) (some bsps)
    | _ => .error .otherError
  | .opencpn =>
    match readRows ',' (lines text) with
    | header :: rows =>
      match parseAll parse header.tail with
      | .error e => .error e
      | .ok ws =>
        match readAnglesAndSpeeds parse rows with
        | .error e => .error e
        | .ok (wa, bsps) => init (.values ws) (.values wa) (some bsps)
    | _ => .error .otherError

end Verif.Table
