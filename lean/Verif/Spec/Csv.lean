/-! How a reader takes a comma separated file apart (RFC 4180). -/

namespace Itm.Spec

/-- Where the reader is: at the start of a cell, inside a plain cell, inside a quoted cell, behind a quote inside a quoted cell. -/
inductive CsvSt where
  | start
  | plain
  | quoted
  | closing
deriving DecidableEq

/-- Lines of cells of a text, with the part of the cell and of the line read so far. -/
def readFrom : CsvSt → List Char → List (List Char) → List Char → List (List (List Char))
  | st, cell, line, [] => if st = .start ∧ line = [] then [] else [line ++ [cell]]
  | .quoted, cell, line, c :: cs => if c = '"' then readFrom .closing cell line cs else readFrom .quoted (cell ++ [c]) line cs
  | st, cell, line, c :: cs =>
    if c = ',' then readFrom .start [] (line ++ [cell]) cs
    else if c = '\n' then (line ++ [cell]) :: readFrom .start [] [] cs
    else if c = '"' ∧ st ≠ .plain then readFrom .quoted (if st = .closing then cell ++ ['"'] else cell) line cs
    else readFrom .plain (cell ++ [c]) line cs

/-- Lines of cells of a text. -/
def readCsv (text : List Char) : List (List (List Char)) := readFrom .start [] [] text

end Itm.Spec
