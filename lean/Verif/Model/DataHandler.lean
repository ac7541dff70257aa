import Verif.Model.Data
import Verif.Model.Nmea

/-!
# Data handlers

Model of `ArrayHandler` and `CsvFileHandler` (`/repo/hrosailing/processing/datahandler.py:57-187`) and of the filters and
the loop of `NMEAFileHandler` (`/repo/hrosailing/processing/datahandler.py:190-322`), each up to the call of
`hrosailing_standard_format`, which is modelled in `Verif.Model.StdFormat`. Statistics are left out.

External: `np.asarray` (the entries of an array keep their type), the text of a file as lines resp. rows
(`csv.reader`), `datetime.strptime`, `ast.literal_eval`, `pandas.read_csv`, `pynmea2.parse`.
-/

namespace Verif.Handler

open Verif.Data

variable {κ V τ : Type} [DecidableEq κ] [DecidableEq τ] [HasType V τ]

/-! ### `ArrayHandler` -/

/-- `list(arr[:, i])` (`/repo/hrosailing/processing/datahandler.py:98`). -/
def arrayColumn (rows : List (List (Option V))) (i : Nat) : List (Option V) :=
  rows.map fun row => (row[i]?).getD none

/-- `data_dict` for a tuple of an array with `ncols` columns and keys
(`/repo/hrosailing/processing/datahandler.py:92-98`). In a dictionary display a later value replaces an earlier one. -/
def arrayDict (ncols : Nat) (rows : List (List (Option V))) (keys : List κ) : Except PyErr (Dict κ (Arg V)) :=
  if keys.length ≠ ncols then .error .valueError
  else .ok (keys.zipIdx.foldl (fun d p => d.set p.1 (.list (arrayColumn rows p.2))) [])

/-- `ArrayHandler.handle` for a tuple, before the conversion to the standard format
(`/repo/hrosailing/processing/datahandler.py:89-103`). -/
def arrayHandle (ncols : Nat) (rows : List (List (Option V))) (keys : List κ) : Res (Data κ V τ) :=
  match arrayDict ncols rows keys with
  | .error e => (empty, some e)
  | .ok d => update empty d false

/-! ### `CsvFileHandler` -/

/-- `{key: [] for key in keys}` (`/repo/hrosailing/processing/datahandler.py:159`). -/
def csvInit {α : Type} (keys : List κ) : Dict κ (List α) := keys.foldl (fun d k => d.set k []) []

/-- The loop over the entries of a row (`/repo/hrosailing/processing/datahandler.py:161-162`); `i` is the index of the
first entry. A row that is longer than the first line raises `IndexError`. -/
def csvRow {α : Type} (keys : List κ) : Nat → List α → Dict κ (List α) → Except PyErr (Dict κ (List α))
  | _, [], d => .ok d
  | i, entry :: row, d =>
    match keys[i]? with
    | none => .error .indexError
    | some k =>
      match d.get? k with
      | none => .error .keyError
      | some col => csvRow keys (i + 1) row (d.set k (col ++ [entry]))

/-- The loop over the rows (`/repo/hrosailing/processing/datahandler.py:160-162`). -/
def csvRows {α : Type} (keys : List κ) : List (List α) → Dict κ (List α) → Except PyErr (Dict κ (List α))
  | [], d => .ok d
  | row :: rows, d =>
    match csvRow keys 0 row d with
    | .error e => .error e
    | .ok d' => csvRows keys rows d'

/-- `data_dict` without pandas for the rows of a file (`/repo/hrosailing/processing/datahandler.py:155-162`). For an
empty file `next` raises `StopIteration`. -/
def csvDict {α : Type} : List (List α) → (α → κ) → Except PyErr (Dict κ (List α))
  | [], _ => .error .otherError
  | header :: rows, name => csvRows (header.map name) rows (csvInit (header.map name))

/-- What `ast.literal_eval` may raise (`/repo/hrosailing/processing/datahandler.py:181-182`). -/
inductive LitErr
  | syntaxError
  | other (e : PyErr)
  deriving DecidableEq, Repr

/-- An entry before `_save_eval`: a string, or a value of another type (numbers, if pandas has read the file;
`/repo/hrosailing/processing/datahandler.py:175-176`). -/
inductive Entry (V : Type)
  | text (s : List Char)
  | value (v : Option V)
  deriving DecidableEq, Repr

/-- `str.strip()` for blanks (`/repo/hrosailing/processing/datahandler.py:178`). -/
def strip (s : List Char) : List Char :=
  ((s.dropWhile (·.isWhitespace)).reverse.dropWhile (·.isWhitespace)).reverse

/-- `_save_eval` (`/repo/hrosailing/processing/datahandler.py:174-187`). `strptime` is `datetime.strptime` with the given
format (`none` for an exception), `literal` is `ast.literal_eval`. -/
def saveEval (strptime : List Char → Option V) (literal : List Char → Except LitErr (Option V)) :
    Entry V → Except PyErr (Option V)
  | .value v => .ok v
  | .text s =>
    match strptime (strip s) with
    | some v => .ok (some v)
    | none =>
      match literal s with
      | .ok v => .ok v
      | .error .syntaxError => .error .runtimeError
      | .error (.other e) => .error e

/-- The loop evaluating all entries (`/repo/hrosailing/processing/datahandler.py:164-165`). -/
def evalColumns (ev : Entry V → Except PyErr (Option V)) : Dict κ (List (Entry V)) → Except PyErr (Dict κ (Arg V))
  | [] => .ok []
  | (k, col) :: d =>
    match col.mapM ev with
    | .error e => .error e
    | .ok c =>
      match evalColumns ev d with
      | .error e => .error e
      | .ok d' => .ok ((k, .list c) :: d')

/-- `CsvFileHandler.handle` after the file has been read, before the conversion to the standard format
(`/repo/hrosailing/processing/datahandler.py:164-167`). -/
def csvFinish (ev : Entry V → Except PyErr (Option V)) (d : Dict κ (List (Entry V))) : Res (Data κ V τ) :=
  match evalColumns ev d with
  | .error e => (empty, some e)
  | .ok d' => fromDict d'

/-- `CsvFileHandler.handle` without pandas, before the conversion to the standard format
(`/repo/hrosailing/processing/datahandler.py:154-167`). The file is given by its rows. -/
def csvHandle (ev : Entry V → Except PyErr (Option V)) (name : List Char → κ) (file : List (List (List Char))) :
    Res (Data κ V τ) :=
  match csvDict file name with
  | .error e => (empty, some e)
  | .ok d => csvFinish ev (Dict.mapVals (fun col => col.map Entry.text) d)

/-! ### `NMEAFileHandler` -/

/-- `part in text` for strings (`/repo/hrosailing/processing/datahandler.py:245`, `:249`). -/
def isSubstring (part : List Char) : List Char → Bool
  | [] => part.isEmpty
  | c :: text => part.isPrefixOf (c :: text) || isSubstring part text

/-- `_sentence_filter` for lists of sentences (`/repo/hrosailing/processing/datahandler.py:243-252`). -/
def sentenceFilter (wanted unwanted : Option (List (List Char))) (line : List Char) : Bool :=
  match wanted, unwanted with
  | some w, _ => w.any fun s => isSubstring s line
  | none, some u => u.all fun s => !isSubstring s line
  | none, none => true

/-- `any(sentence in line for sentence in wanted_sentences)` for an iterator (`/repo/hrosailing/processing/datahandler.py:243-246`):
the elements up to the first match are consumed. The result and what is left of the iterator. -/
def anyIter (line : List Char) : List (List Char) → Bool × List (List Char)
  | [] => (false, [])
  | s :: it => if isSubstring s line then (true, it) else anyIter line it

/-- `filter(self._sentence_filter, file)` if `wanted_sentences` is an iterator
(`/repo/hrosailing/processing/datahandler.py:292-295`). -/
def filterIter : List (List Char) → List (List Char) → List (List Char)
  | _, [] => []
  | it, line :: lines =>
    if (anyIter line it).1 then line :: filterIter (anyIter line it).2 lines else filterIter (anyIter line it).2 lines

/-- `_attribute_filter` (`/repo/hrosailing/processing/datahandler.py:254-270`) for the name of a field. -/
def attributeFilter (wanted unwanted : Option (List Nmea.Key)) (field : Nmea.Key) : Bool :=
  match wanted, unwanted with
  | some w, _ => (Nmea.wantedNmea w).any fun a => decide (field = a)
  | none, some u => u.all fun a => !decide (field = a)
  | none, none => true

/-- `parsed_dict` (`/repo/hrosailing/processing/datahandler.py:297-309`) for the names and values of the fields. -/
def fieldDict (keep : Nmea.Key → Bool) (fields : List (Nmea.Key × Option V)) : Dict Nmea.Key (Option V) :=
  (fields.filter fun f => keep f.1).foldl (fun d f => d.set f.1 f.2) []

/-- What is read from one sentence (`/repo/hrosailing/processing/datahandler.py:298-311`); `parse` is `pynmea2.parse`
together with the values of the fields, `post` is `_postprocess`. -/
def sentenceDict (parse : List Char → Except PyErr (List (Nmea.Key × Option V))) (keep : Nmea.Key → Bool)
    (post : Dict Nmea.Key (Option V) → Except PyErr (Dict Nmea.Key (Option V))) (line : List Char) :
    Except PyErr (Dict Nmea.Key (Option V)) :=
  match parse line with
  | .error e => .error e
  | .ok fields => post (fieldDict keep fields)

/-- One round of the loop (`/repo/hrosailing/processing/datahandler.py:297-313`). -/
def nmeaStep (read : List Char → Except PyErr (Dict Nmea.Key (Option V))) (D : Data Nmea.Key V τ) (line : List Char) :
    Res (Data Nmea.Key V τ) :=
  match read line with
  | .error e => (D, some e)
  | .ok d => update D (Dict.mapVals Arg.scalar d) true

/-- `NMEAFileHandler.handle` before the conversion to the standard format
(`/repo/hrosailing/processing/datahandler.py:287-313`); `keepLine` is `_sentence_filter`. -/
def nmeaHandle (keepLine : List Char → Bool) (read : List Char → Except PyErr (Dict Nmea.Key (Option V)))
    (lines : List (List Char)) : Res (Data Nmea.Key V τ) :=
  Res.forEach (nmeaStep read) (lines.filter keepLine) empty

end Verif.Handler
