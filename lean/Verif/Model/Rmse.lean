import Verif.Model.DataSet
import Verif.Model.Metrics
/-!
Model of `compute_rmse`, nilmtk/utils.py:388-463, which gives the RMS error of every column of a frame of predictions.

A column of the ground truth is headed by an object, which is a string or something else; `label()` may raise, and so may the access to
`building` and `instance`, whose texts in `'{} ({}, {})'.format(...)` are inputs. No index has a time twice. The square root is taken in
`computeRmse`; `rmseMeans` gives its arguments.
-/
namespace Nilmtk

/-- A key of the resulting dictionary: a text or another object. -/
inductive RmseKey where
  | text (s : String)
  | other (n : Nat)
  deriving DecidableEq, Repr

/-- The head of a column of the ground truth: the object as a key, the result of `label()` (`none` if it raises), and the texts of the
attributes `building` and `instance` (`none` if there are no such attributes). -/
structure RmseApp where
  key : RmseKey
  label : Option String
  place : Option (String × String)
  deriving DecidableEq, Repr

/-- An entry `[app, app_label, app_rms_error]` of `rms_error`, utils.py:442, with the mean of the squares instead of its root. -/
structure RmseEntry where
  app : RmseApp
  label : RmseKey
  value : Option Rat
  deriving DecidableEq, Repr

/-- `pd.DataFrame({'gt': gt_app, 'pr': pred_app}, index=gt_app.index).dropna()`, utils.py:432. -/
def rmsePairs (gt pr : PSeries) : List (Rat × Rat) :=
  gt.filterMap (fun r => match r.2, PSeries.at pr r.1 with | some a, some b => some (a, b) | _, _ => none)

/-- The mean of the squared differences, utils.py:434-437; `none` is NaN. -/
def rmseMean (gt pr : PSeries) : Option Rat :=
  let d := rmsePairs gt pr
  if d.isEmpty then none else some ((d.map (fun p => (p.1 - p.2) ^ 2)).sum / (d.length : Nat))

/-- `app_label`, and the value of `pretty` afterwards, utils.py:418-425. -/
def rmseLabel (pretty : Bool) (app : RmseApp) : RmseKey × Bool :=
  if pretty then
    match app.label with
    | some l => (.text l, true)
    | none => (app.key, false)
  else (app.key, false)

/-- `app_counts[app_label] += 1`, utils.py:440, of a `defaultdict(int)`. -/
def rmseCount (counts : List (RmseKey × Nat)) (l : RmseKey) : List (RmseKey × Nat) :=
  orderedSet counts l ((counts.lookup l).getD 0 + 1)

/-- The loop over the columns, utils.py:417-442: `i` is `app_idx`. -/
def rmseLoop (preds : List PSeries) : List (RmseApp × PSeries) → Nat → Bool → List (RmseKey × Nat) → List RmseEntry →
    Except Err (List RmseEntry × List (RmseKey × Nat) × Bool)
  | [], _, pretty, counts, acc => .ok (acc, counts, pretty)
  | c :: cs, i, pretty, counts, acc =>
    let lp := rmseLabel pretty c.1
    match preds[i]? with
    | none => .error .indexError
    | some pr =>
      if pr.isEmpty then rmseLoop preds cs (i + 1) lp.2 counts acc
      else rmseLoop preds cs (i + 1) lp.2 (if lp.2 then rmseCount counts lp.1 else counts) (acc ++ [⟨c.1, lp.1, rmseMean c.2 pr⟩])

/-- `'{} ({}, {})'.format(current_label, app.building, app.instance)`, utils.py:455-459. The labels of pretty entries are texts. -/
def rmseFormat (l : RmseKey) (b i : String) : RmseKey :=
  match l with
  | .text s => .text (s ++ " (" ++ b ++ ", " ++ i ++ ")")
  | .other n => .other n

/-- One round of the inner loop over `rms_error`, utils.py:450-459. -/
def rmseRenameOne (l : RmseKey) (e : RmseEntry) : Except Err RmseEntry :=
  if e.label ≠ l then .ok e
  else
    match e.app.place with
    | none => .error .attributeError
    | some (b, i) => .ok ⟨e.app, rmseFormat l b i, e.value⟩

/-- The inner loop, utils.py:450-459. -/
def rmseRename (l : RmseKey) : List RmseEntry → Except Err (List RmseEntry)
  | [] => .ok []
  | e :: es =>
    match rmseRenameOne l e with
    | .error x => .error x
    | .ok e' =>
      match rmseRename l es with
      | .error x => .error x
      | .ok es' => .ok (e' :: es')

/-- The loop over `app_counts`, utils.py:444-459. -/
def rmseRenameAll : List (RmseKey × Nat) → List RmseEntry → Except Err (List RmseEntry)
  | [], es => .ok es
  | (l, n) :: cs, es =>
    if n < 2 then rmseRenameAll cs es
    else
      match rmseRename l es with
      | .error x => .error x
      | .ok es' => rmseRenameAll cs es'

/-- `dict((item[1], item[2]) for item in rms_error)`, utils.py:461-463. -/
def rmseDict (es : List RmseEntry) : List (RmseKey × Option Rat) :=
  es.foldl (fun d e => orderedSet d e.label e.value) []

/-- `compute_rmse`, utils.py:388-463, before the square roots. The names of the columns of `predictions` play no part. -/
def rmseMeans {κ : Type} (gt : List (RmseApp × PSeries)) (predictions : List (κ × PSeries)) (pretty : Bool) :
    Except Err (List (RmseKey × Option Rat)) :=
  match rmseLoop (predictions.map Prod.snd) gt 0 pretty [] [] with
  | .error e => .error e
  | .ok (es, counts, pretty') =>
    if pretty' then
      match rmseRenameAll counts es with
      | .error e => .error e
      | .ok es' => .ok (rmseDict es')
    else .ok (rmseDict es)

/-- `compute_rmse`, utils.py:388-463: the entries of the resulting `Series`; `none` is NaN. -/
noncomputable def computeRmse {κ : Type} (gt : List (RmseApp × PSeries)) (predictions : List (κ × PSeries)) (pretty : Bool) :
    Except Err (List (RmseKey × Option Real)) :=
  match rmseMeans gt predictions pretty with
  | .error e => .error e
  | .ok d => .ok (d.map (fun e => (e.1, e.2.map (fun q : Rat => Real.sqrt (q : Real)))))

end Nilmtk
