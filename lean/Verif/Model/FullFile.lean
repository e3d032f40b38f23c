import Verif.Model.SheetFile
import Verif.Model.XlsObjects
import Verif.Model.PyNum
import Verif.Model.XlsxNames
import Verif.Model.XlsOld
/-!
# The reader of spread sheet files with all its parts in place

`openWorkbook` and `packFile` with the handlers of objects, names, properties and comments, and the
reading of files before BIFF 5: what is left open is what python does.
-/

namespace CP

/-- What is used of python: texts and numbers in xlsx files, rounding, codecs, numbers in formulas, the parts of zip files,
and the depth of calls. -/
structure PyEnv where
  xlsx : XlEnv
  rnd : Rat → Rat
  codec : List Char → Bytes → Except Exc (List Char)
  num : PyOps
  zip : Bytes → Except Exc Zip
  depth : Nat

/-- xlrd/book.py:70-139, xlrd/sheet.py:344-350, 429-456: a book has no names at first, a sheet no objects.  (Without the reading
of files before BIFF 5.) -/
def PyEnv.newBooks (W : PyEnv) : BookEnv ObjSt NameSt where
  rnd := W.rnd
  codec := W.codec
  obj := handleObject
  obj0 := ⟨none, false⟩
  names := handleNames
  names0 := .init
  namesEnd := namesEpilogue (pyNum W.num)
  old := fun _ _ _ => .error .generic

/-- xlrd/book.py:102-124: all books. -/
def PyEnv.books (W : PyEnv) : BookEnv ObjSt NameSt := W.newBooks.withOld

/-- The readers of xlsx and xls files. -/
def PyEnv.reader (W : PyEnv) : FileEnv ObjSt NameSt where
  xlsx := W.xlsx.concrete
  xls := W.books
  zip := W.zip
  depth := W.depth

end CP
