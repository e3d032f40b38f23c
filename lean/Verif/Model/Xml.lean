import Verif.Model.Py
/-!
# XML elements, as channelpack/xlrd/xlsx.py uses them (`xml.etree.ElementTree`)
-/

namespace CP

/-- The namespaces, xlsx.py:86-92; `none` for a name without one. -/
inductive XmlNs where
  | none | ssml | odrel | pkgrel | xml | other (n : Nat)
  deriving DecidableEq

/-- A name of an element or an attribute; `{uri}name` in ElementTree. -/
structure QName where
  ns : XmlNs
  name : List Char
  deriving DecidableEq

/-- A name in the main namespace, xlsx.py:86 -/
def ssml (s : List Char) : QName := ⟨.ssml, s⟩

/-- A name without namespace. -/
def bare (s : List Char) : QName := ⟨.none, s⟩

/-- An element of ElementTree, xlsx.py:230 and 509 (the tail text is not used). -/
inductive Elem where
  | mk (tag : QName) (attrib : List (QName × List Char)) (text : Option (List Char)) (children : List Elem)

/-- `elem.tag` -/
def Elem.tag : Elem → QName
  | .mk t _ _ _ => t

/-- `elem.attrib` -/
def Elem.attrib : Elem → List (QName × List Char)
  | .mk _ a _ _ => a

/-- `elem.text` -/
def Elem.text : Elem → Option (List Char)
  | .mk _ _ t _ => t

/-- `list(elem)` -/
def Elem.children : Elem → List Elem
  | .mk _ _ _ c => c

/-- `elem.get(key)` -/
def Elem.get (e : Elem) (key : QName) : Option (List Char) := dget e.attrib key

mutual
/-- `tree.iter()`, xlsx.py:230: the element and all below it, in document order. -/
def Elem.iter : Elem → List Elem
  | .mk t a x cs => .mk t a x cs :: iterList cs
/-- The same for some elements. -/
def iterList : List Elem → List Elem
  | [] => []
  | e :: es => e.iter ++ iterList es
end

mutual
/-- The elements in the order of their ends, as `ET.iterparse` gives them, xlsx.py:400 and 509.  (The calls of
`elem.clear()` in between are left out: a row is not within a row, nor an `si` within an
`si`.) -/
def Elem.ends : Elem → List Elem
  | .mk t a x cs => endsList cs ++ [.mk t a x cs]
/-- The same for some elements. -/
def endsList : List Elem → List Elem
  | [] => []
  | e :: es => e.ends ++ endsList es
end

end CP
