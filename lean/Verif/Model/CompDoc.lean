import Verif.Model.Dbf
import Verif.Model.PyStr
/-!
# Model of channelpack/xlrd/compdoc.py

The loops along sector chains have a bound on the number of rounds; a result of none means
that the loop is not done by then.  So a loop terminates if there is a bound for which the
result is not none.  Output to the log is left out (`DEBUG` is 0).
-/

namespace CP

/-- compdoc.py:23-26 -/
def eocSid : Int := -2
def freeSid : Int := -1
def msatSid : Int := -4

/-- `l[a:b]` of a Python sequence for any integers. -/
def pySliceI {α : Type} (l : List α) (a b : Int) : List α :=
  let norm (i : Int) : Nat := (if i < 0 then i + l.length else i).toNat
  pySlice l (norm a) (norm b)

/-- A signed little endian integer of four bytes. -/
def leInt (b : Bytes) : Int :=
  if leNat b < 2147483648 then leNat b else (leNat b : Int) - 4294967296

/-- The four byte integers in a byte string. -/
def leInts : Nat → Bytes → List Int
  | 0, _ => []
  | n + 1, b => leInt (b.take 4) :: leInts n (b.drop 4)

/-- `unpack('<%di' % n, b)` -/
def unpackInts (n : Nat) (b : Bytes) : Except Exc (List Int) :=
  if b.length = 4 * n then .ok (leInts n b) else .error .structError

/-- compdoc.py:32-51 `DirNode` (without what is not used: `colour`, `parent`, `tsinfo`).
`children` are kept beside, see `familyTree`. -/
structure DirNode where
  name : List Char
  etype : Nat
  left : Int
  right : Int
  root : Int
  first : Int
  size : Int
  deriving DecidableEq

/-- compdoc.py:34-51; `utf16` is `bytes.decode('utf_16_le')`. -/
def dirNode (utf16 : Bytes → Except Exc (List Char)) (dent : Bytes) : Except Exc DirNode :=
  let a := pySlice dent 64 80
  let b := pySlice dent 116 124
  if a.length ≠ 16 ∨ b.length ≠ 8 then .error .structError
  else
    let cbufsize := leNat (a.take 2)
    match (if cbufsize = 0 then .ok [] else utf16 (pySliceI dent 0 ((cbufsize : Int) - 2))) with
    | .error e => .error e
    | .ok name => .ok
        { name := name,
          etype := leNat (pySlice a 2 3),
          left := leInt (pySlice a 4 8),
          right := leInt (pySlice a 8 12),
          root := leInt (pySlice a 12 16),
          first := leInt (pySlice b 0 4),
          size := leInt (pySlice b 4 8) }

/-- compdoc.py:230-235: the directory entries (`n` is at least their number). -/
def dirNodes (utf16 : Bytes → Except Exc (List Char)) : Nat → Bytes → Except Exc (List DirNode)
  | 0, _ => .ok []
  | n + 1, b =>
    if b = [] then .ok []
    else match dirNode utf16 (b.take 128) with
      | .error e => .error e
      | .ok d =>
        match dirNodes utf16 n (b.drop 128) with
        | .error e => .error e
        | .ok ds => .ok (d :: ds)

/-- compdoc.py:64-71 `_build_family_tree`: the pairs (parent, child) in the order in which
children are appended.  `n` is the depth of calls that Python allows. -/
def familyTree (dirlist : List DirNode) : Nat → Nat → Int → Except Exc (List (Nat × Nat))
  | 0, _, _ => .error .recursionError
  | n + 1, parent, child =>
    if child < 0 then .ok []
    else match dirlist[child.toNat]? with
      | none => .error .indexError
      | some d =>
        match familyTree dirlist n parent d.left with
        | .error e => .error e
        | .ok l =>
          match familyTree dirlist n parent d.right with
          | .error e => .error e
          | .ok r =>
            match (if d.etype = 1 then familyTree dirlist n child.toNat d.root else .ok []) with
            | .error e => .error e
            | .ok k => .ok (l ++ (parent, child.toNat) :: r ++ k)

/-- A CompDoc.  `seen` are bytes; `sscs` is none for the empty str of line 252. -/
structure CompDoc where
  mem : Bytes
  secSize : Nat
  shortSecSize : Nat
  minSizeStd : Int
  memDataLen : Nat
  sat : List Int
  ssat : List Int
  sscs : Option Bytes
  dirlist : List DirNode
  kids : List (Nat × Nat)
  seen : List Nat
  ignoreCorruption : Bool

/-- `if seen[s]: raise CompDocError(...)` and `seen[s] = seen_id`, of an array of bytes. -/
def markSeen (seen : List Nat) (s seenId : Nat) : Except Exc (List Nat) :=
  match seen[s]? with
  | none => .error .indexError
  | some x =>
    if x ≠ 0 then .error .compDocError
    else if seenId > 255 then .error .overflowError
    else .ok (seen.set s seenId)

/-- The same in `_get_stream`, where there may be no `seen_id`. -/
def markOpt (seen : List Nat) (s : Nat) (seenId : Option Nat) : Except Exc (List Nat) :=
  match seenId with
  | none => .ok seen
  | some i => markSeen seen s i

/-- compdoc.py:296-297 and 313-318: the bytes of a sector and what is to do after it; none:
there is nothing to check against. -/
def grabSector (mem : Bytes) (base secSize s : Nat) (todo : Option Int) : Bytes × Option Int :=
  let start := base + s * secSize
  match todo with
  | none => (pySlice mem start (start + secSize), none)
  | some t =>
    let grab : Int := if (secSize : Int) > t then t else secSize
    (pySliceI mem start (start + grab), some (t - grab))

/-- compdoc.py:285-332 `_get_stream` up to the `join`: the sectors, beside the array `seen`
after it. -/
def streamLoop (mem : Bytes) (base : Nat) (sat : List Int) (secSize : Nat) (seenId : Option Nat) :
    Nat → List Nat → Int → Option Int → Option (List Nat × Except Exc (List Bytes))
  | 0, _, _, _ => none
  | n + 1, seen, s, todo =>
    if s < 0 then some (seen, if s = eocSid then .ok [] else .error .assertionError)
    else match markOpt seen s.toNat seenId with
      | .error e => some (seen, .error e)
      | .ok seen =>
        let g := grabSector mem base secSize s.toNat todo
        match sat[s.toNat]? with
        | none => some (seen, .error .compDocError)
        | some s' =>
          match streamLoop mem base sat secSize seenId n seen s' g.2 with
          | none => none
          | some (seen, .error e) => some (seen, .error e)
          | some (seen, .ok ss) => some (seen, .ok (g.1 :: ss))

/-- compdoc.py:147-170: the master sector allocation table, with its extension sectors. -/
def msatLoop (mem : Bytes) (secSize nSecs : Nat) :
    Nat → List Nat → List Int → Int → Option (Except Exc (List Nat × List Int))
  | 0, _, _, _ => none
  | n + 1, seen, msat, sid =>
    if sid = eocSid ∨ sid = freeSid ∨ sid = msatSid then some (.ok (seen, msat))
    else if sid ≥ nSecs then some (.error .compDocError)
    else if sid < 0 then some (.error .compDocError)
    else match markSeen seen sid.toNat 1 with
      | .error e => some (.error e)
      | .ok seen =>
        let offset := 512 + secSize * sid.toNat
        match unpackInts (secSize / 4) (pySlice mem offset (offset + secSize)) with
        | .error e => some (.error e)
        | .ok xs => msatLoop mem secSize nSecs n seen (msat ++ xs.dropLast) (xs.getLast?.getD 0)

/-- compdoc.py:180-207: the sector allocation table. -/
def satLoop (mem : Bytes) (secSize nSecs : Nat) : List Nat → List Int → Except Exc (List Nat × List Int)
  | seen, [] => .ok (seen, [])
  | seen, msid :: rest =>
    if msid = freeSid ∨ msid = eocSid then satLoop mem secSize nSecs seen rest
    else if msid ≥ nSecs then satLoop mem secSize nSecs seen rest
    else if msid < -2 then .error .compDocError
    else match markSeen seen msid.toNat 2 with
      | .error e => .error e
      | .ok seen =>
        let offset := 512 + secSize * msid.toNat
        match unpackInts (secSize / 4) (pySlice mem offset (offset + secSize)) with
        | .error e => .error e
        | .ok xs =>
          match satLoop mem secSize nSecs seen rest with
          | .error e => .error e
          | .ok (seen, ys) => .ok (seen, xs ++ ys)

/-- compdoc.py:265-277: the short sector allocation table, `n` sectors of it. -/
def ssatLoop (mem : Bytes) (secSize : Nat) (sat : List Int) :
    Nat → List Nat → Int → Except Exc (List Nat × List Int)
  | n, seen, sid =>
    if sid < 0 ∨ n = 0 then
      if n = 0 ∧ sid = eocSid then .ok (seen, []) else .error .assertionError
    else match n with
      | 0 => .error .assertionError
      | n + 1 =>
        match markSeen seen sid.toNat 5 with
        | .error e => .error e
        | .ok seen =>
          let start := 512 + sid.toNat * secSize
          match unpackInts (secSize / 4) (pySlice mem start (start + secSize)) with
          | .error e => .error e
          | .ok xs =>
            match sat[sid.toNat]? with
            | none => .error .indexError
            | some sid =>
              match ssatLoop mem secSize sat n seen sid with
              | .error e => .error e
              | .ok (seen, ys) => .ok (seen, xs ++ ys)

/-- compdoc.py:21 -/
def oleSignature : Bytes := [0xD0, 0xCF, 0x11, 0xE0, 0xA1, 0xB1, 0x1A, 0xE1]

/-- compdoc.py:96-106: the sizes of sectors and short sectors. -/
def sectorSizes (ssz sssz : Nat) : Nat × Nat :=
  let ssz := if ssz > 20 then 9 else ssz
  let sssz := if sssz > ssz then 6 else sssz
  (2 ^ ssz, 2 ^ sssz)

/-- compdoc.py:114-123: the number of sectors in the file, a part of one counts. -/
def dataSecs (len secSize : Nat) : Nat := (len - 512 + secSize - 1) / secSize

/-- compdoc.py:227-277: what is read with the help of the SAT: the directory, the short
stream container stream and the SSAT. -/
def CompDoc.finish (utf16 : Bytes → Except Exc (List Char)) (depth fuel : Nat) (cd : CompDoc)
    (dirFirst ssatFirst ssatSecs : Int) : Option (Except Exc CompDoc) :=
  match streamLoop cd.mem 512 cd.sat cd.secSize (some 3) fuel cd.seen dirFirst none with
  | none => none
  | some (_, .error e) => some (.error e)
  | some (seen, .ok ds) =>
    match dirNodes utf16 ds.flatten.length ds.flatten with
    | .error e => some (.error e)
    | .ok [] => some (.error .indexError)
    | .ok (root :: others) =>
      match familyTree (root :: others) depth 0 root.root with
      | .error e => some (.error e)
      | .ok kids =>
        if root.etype ≠ 5 then some (.error .assertionError)
        else
          let sscs : Option (List Nat × Except Exc (Option Bytes)) :=
            if root.first < 0 ∨ root.size = 0 then some (seen, .ok none)
            else match streamLoop cd.mem 512 cd.sat cd.secSize (some 4) fuel seen root.first (some root.size) with
              | none => none
              | some (seen, .error e) => some (seen, .error e)
              | some (seen, .ok ss) => some (seen, .ok (some ss.flatten))
          match sscs with
          | none => none
          | some (_, .error e) => some (.error e)
          | some (seen, .ok sscs) =>
            let ssat : Except Exc (List Nat × List Int) :=
              if root.size > 0 then
                if ssatSecs < 0 then .error .assertionError
                else ssatLoop cd.mem cd.secSize cd.sat ssatSecs.toNat seen ssatFirst
              else .ok (seen, [])
            match ssat with
            | .error e => some (.error e)
            | .ok (seen, ssat) => some (.ok
                { cd with dirlist := root :: others, kids := kids, sscs := sscs, ssat := ssat, seen := seen })

/-- compdoc.py:109-113: an integer of the header. -/
def headInt (mem : Bytes) (pos : Nat) : Int := leInt (pySlice mem pos (pos + 4))

/-- compdoc.py:138-170: the master sector allocation table and the marks. -/
def readMsat (mem : Bytes) (secSize nSecs fuel : Nat) : Option (Except Exc (List Nat × List Int)) :=
  if headInt mem 72 = 0 ∧ (headInt mem 68 = eocSid ∨ headInt mem 68 = freeSid ∨ headInt mem 68 = 0) then
    some (.ok (List.replicate nSecs 0, leInts 109 (pySlice mem 76 512)))
  else msatLoop mem secSize nSecs fuel (List.replicate nSecs 0) (leInts 109 (pySlice mem 76 512)) (headInt mem 68)

/-- compdoc.py:84-207: the attributes set before the directory is read. -/
def CompDoc.start (mem : Bytes) (secSize shortSecSize : Nat) (sat : List Int) (seen : List Nat) (ignore : Bool) : CompDoc :=
  { mem := mem, secSize := secSize, shortSecSize := shortSecSize, minSizeStd := headInt mem 56,
    memDataLen := mem.length - 512, sat := sat, ssat := [], sscs := none, dirlist := [], kids := [],
    seen := seen, ignoreCorruption := ignore }

/-- compdoc.py:133-277: the rest of `__init__`, with the sizes of sectors and their number. -/
def CompDoc.initSized (utf16 : Bytes → Except Exc (List Char)) (depth fuel : Nat) (mem : Bytes) (ignore : Bool)
    (secSize shortSecSize nSecs : Nat) : Option (Except Exc CompDoc) :=
  match readMsat mem secSize nSecs fuel with
  | none => none
  | some (.error e) => some (.error e)
  | some (.ok (seen, msat)) =>
    match satLoop mem secSize nSecs seen msat with
    | .error e => some (.error e)
    | .ok (seen, sat) =>
      CompDoc.finish utf16 depth fuel (CompDoc.start mem secSize shortSecSize sat seen ignore)
        (headInt mem 48) (headInt mem 60) (headInt mem 64)

/-- compdoc.py:84-277 `CompDoc.__init__`.  Sectors of less than eight bytes make a division
by zero (lines 139-140). -/
def CompDoc.init (utf16 : Bytes → Except Exc (List Char)) (depth fuel : Nat) (mem : Bytes) (ignore : Bool) :
    Option (Except Exc CompDoc) :=
  if pySlice mem 0 8 ≠ oleSignature then some (.error .compDocError)
  else if pySlice mem 28 30 ≠ [0xFE, 0xFF] then some (.error .compDocError)
  else if mem.length < 512 then some (.error .structError)
  else
    let sizes := sectorSizes (leNat (pySlice mem 30 32)) (leNat (pySlice mem 32 34))
    if sizes.1 / 4 < 2 then some (.error .zeroDivisionError)
    else CompDoc.initSized utf16 depth fuel mem ignore sizes.1 sizes.2 (dataSecs mem.length sizes.1)

/-- `children` of a directory entry. -/
def CompDoc.children (cd : CompDoc) (did : Nat) : List Nat :=
  (cd.kids.filter fun p => p.1 = did).map Prod.snd

/-- compdoc.py:334-350 `_dir_search`; `low` is `str.lower`.  The number of the entry found. -/
def CompDoc.dirSearch (low : List Char → List Char) (cd : CompDoc) :
    List (List Char) → Nat → Except Exc (Option (Nat × DirNode))
  | [], _ => .error .indexError
  | head :: tail, storage =>
    match (cd.children storage).find? (fun c => (cd.dirlist[c]?.map fun d => low d.name) = some (low head)) with
    | none => .ok none
    | some c =>
      match cd.dirlist[c]? with
      | none => .error .indexError
      | some d =>
        if d.etype = 2 then .ok (some (c, d))
        else if d.etype = 1 then
          match tail with
          | [] => .error .compDocError
          | _ :: _ => CompDoc.dirSearch low cd tail c
        else .error .compDocError

/-- compdoc.py:370-372, 406-412: a stream in the short stream container.  The empty str has no
sectors to join (lines 252, 332). -/
def CompDoc.shortStream (cd : CompDoc) (fuel : Nat) (d : DirNode) : Option (Except Exc Bytes) :=
  match streamLoop (cd.sscs.getD []) 0 cd.ssat cd.shortSecSize none fuel cd.seen d.first (some d.size) with
  | none => none
  | some (_, .error e) => some (.error e)
  | some (_, .ok ss) => if cd.sscs = none ∧ ss ≠ [] then some (.error .typeError) else some (.ok ss.flatten)

/-- compdoc.py:353-372 `get_named_stream`, beside the array `seen` after it. -/
def CompDoc.getNamedStream (low : List Char → List Char) (cd : CompDoc) (fuel : Nat) (qname : List Char) :
    Option (List Nat × Except Exc (Option Bytes)) :=
  match cd.dirSearch low (splitChar '/' qname) 0 with
  | .error e => some (cd.seen, .error e)
  | .ok none => some (cd.seen, .ok none)
  | .ok (some (did, d)) =>
    if d.size ≥ cd.minSizeStd then
      match streamLoop cd.mem 512 cd.sat cd.secSize (some (did + 6)) fuel cd.seen d.first (some d.size) with
      | none => none
      | some (seen, .error e) => some (seen, .error e)
      | some (seen, .ok ss) => some (seen, .ok (some ss.flatten))
    else match cd.shortStream fuel d with
      | none => none
      | some (.error e) => some (cd.seen, .error e)
      | some (.ok b) => some (cd.seen, .ok (some b))

/-- The state of the loop of `_locate_stream`: the previous sector (none at first), the
slice that is open, the slices before it, and the sectors found. -/
structure LocState where
  prev : Option Nat
  start : Nat
  stop : Nat
  slices : List (Nat × Nat)
  found : Nat

/-- compdoc.py:438-448: one more sector. -/
def LocState.add (st : LocState) (base secSize s : Nat) : LocState :=
  if st.prev = some (s - 1) ∧ 0 < s then
    { st with prev := some s, stop := st.stop + secSize }
  else
    { st with prev := some s,
              slices := if st.prev = none then st.slices else st.slices ++ [(st.start, st.stop)],
              start := base + s * secSize, stop := base + s * secSize + secSize }

/-- compdoc.py:425-451: the loop of `_locate_stream`; `limit` is `found_limit`. -/
def locateLoop (base : Nat) (sat : List Int) (secSize : Nat) (ignore : Bool) (seenId : Nat) (limit : Int) :
    Nat → List Nat → Int → LocState → Option (List Nat × Except Exc LocState)
  | 0, _, _, _ => none
  | n + 1, seen, s, st =>
    if s < 0 then
      some (seen, if s = eocSid ∧ (st.found : Int) = limit then .ok st else .error .assertionError)
    else match seen[s.toNat]? with
      | none => some (seen, .error .indexError)
      | some x =>
        if x ≠ 0 ∧ ignore = false then some (seen, .error .compDocError)
        else if seenId > 255 then some (seen, .error .overflowError)
        else
          let seen := seen.set s.toNat seenId
          if (st.found : Int) + 1 > limit then some (seen, .error .compDocError)
          else match sat[s.toNat]? with
            | none => some (seen, .error .indexError)
            | some s' =>
              locateLoop base sat secSize ignore seenId limit n seen s'
                { st.add base secSize s.toNat with found := st.found + 1 }

/-- Data, the offset in it and the length. -/
structure Located where
  data : Bytes
  offset : Nat
  len : Int

/-- compdoc.py:414-458 `_locate_stream`. -/
def CompDoc.locateStream (cd : CompDoc) (fuel : Nat) (start size : Int) (seenId : Nat) :
    Option (List Nat × Except Exc Located) :=
  if start < 0 then some (cd.seen, .error .compDocError)
  else
    match locateLoop 512 cd.sat cd.secSize cd.ignoreCorruption seenId ((size + cd.secSize - 1) / cd.secSize) fuel cd.seen
        start { prev := none, start := 0, stop := 0, slices := [], found := 0 } with
    | none => none
    | some (seen, .error e) => some (seen, .error e)
    | some (seen, .ok st) =>
      if st.slices = [] then some (seen, .ok ⟨cd.mem, st.start, size⟩)
      else some (seen, .ok
        ⟨((st.slices ++ [(st.start, st.stop)]).map fun p => pySlice cd.mem p.1 p.2).flatten, 0, size⟩)

/-- compdoc.py:374-412 `locate_named_stream`; (None, 0, 0) is none. -/
def CompDoc.locateNamedStream (low : List Char → List Char) (cd : CompDoc) (fuel : Nat) (qname : List Char) :
    Option (List Nat × Except Exc (Option Located)) :=
  match cd.dirSearch low (splitChar '/' qname) 0 with
  | .error e => some (cd.seen, .error e)
  | .ok none => some (cd.seen, .ok none)
  | .ok (some (did, d)) =>
    if d.size > cd.memDataLen then some (cd.seen, .error .compDocError)
    else if d.size ≥ cd.minSizeStd then
      match cd.locateStream fuel d.first d.size (did + 6) with
      | none => none
      | some (seen, .error e) => some (seen, .error e)
      | some (seen, .ok l) => some (seen, .ok (some l))
    else match cd.shortStream fuel d with
      | none => none
      | some (.error e) => some (cd.seen, .error e)
      | some (.ok b) => some (cd.seen, .ok (some ⟨b, 0, d.size⟩))

end CP
