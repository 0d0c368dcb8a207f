import Verif.Model.TextNumber

/-
The times in the index of a stream: `m_idx_stream << bdata->get_time()` with the settings a QTextStream begins with, and
`parts[1].toDouble` when the index is loaded.
-/

namespace NB

open Dec

/-- Significant digits of the times in an index: the precision a QTextStream begins with is 6 and its notation is
`SmartNotation`; /repo/nbody/nbody_data_stream.cpp:56-64,154-157 changes neither. -/
def idxDigits : Nat := 6

/-- Printing and reading of the times of an index.  `val` is the number that a text stands for, `rd` the double that a
number is read as.  (/repo/nbody/nbody_data_stream.cpp:155, /repo/nbody/nbody_data_stream_reader.cpp:153; the printer and
the reader of Qt are not in /repo: any that round to nearest.) -/
structure TimeText (print : Rat → List Char) (toDouble : List Char → Option Rat) (val : List Char → Option Rat)
    (rd : Rat → Rat) : Prop where
  prints : ∀ x, ∃ D, val (print x) = some D ∧ IsNearest (IsDecimal idxDigits) x D
  noTab : ∀ x, '\t' ∉ print x
  noBreak : ∀ x, '\n' ∉ print x
  reads : ∀ t D, val t = some D → InRange 53 (-1074) 971 D → toDouble t = some (rd D)
  near : ∀ D, InRange 53 (-1074) 971 D → IsNearest IsDouble D (rd D)

end NB
