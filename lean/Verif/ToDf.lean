import Verif.Recorder

/-
Model of `Recorder.to_df` (registry.py:687-692) and of what it uses of pandas (>= 1.0).

Simplified: cells hold the values themselves (pandas may convert the values of a column to a common type); None stands for NaN.
-/
namespace Whatami

/-- A data frame: names of columns, and labelled rows with a cell for each column; a missing cell is NaN.  registry.py:692. -/
structure DataFrame where
  columns : List Str
  rows : List (Rid × List (Option Val))

/-- `DataFrame.from_dict(registry, orient='index')`: pandas goes through the columns of all the records, so a record without columns has no row.
The order of columns and of rows is up to pandas (its versions differ): `orderCols` and `orderRows`.  registry.py:692. -/
def fromDict (orderCols : List Str → List Str) (orderRows : List Rid → List Rid) (reg : List (Rid × Record)) : DataFrame :=
  let cols := orderCols (dictOf (reg.flatMap fun r => r.2.map fun kv => (kv.1, ()))|>.map Prod.fst)
  let ids := orderRows ((reg.filter fun r => !r.2.isEmpty).map Prod.fst)
  { columns := cols, rows := ids.map fun i => (i, cols.map fun c => (dget reg i).bind fun rec => dget rec c) }

/-- `df.loc[labels]`: a label without a row raises KeyError.  registry.py:692. -/
def DataFrame.loc (df : DataFrame) (labels : List Rid) : R DataFrame :=
  (mapR (fun i => match dget df.rows i with | some cells => .ok (i, cells) | none => .error .keyError) labels).map fun rows =>
    { df with rows := rows }

/-- registry.py:687-692 `to_df`. -/
def Recorder.toDf (orderCols : List Str → List Str) (orderRows : List Rid → List Rid) (r : Recorder) : R DataFrame :=
  (fromDict orderCols orderRows r.registry).loc (r.registry.map Prod.fst)

end Whatami
