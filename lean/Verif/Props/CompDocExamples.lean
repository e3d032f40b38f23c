import Verif.Props.CompDoc
/-!
# Compound documents: examples and counterexamples

Small files with sectors of 128 bytes and short sectors of 8 bytes.
-/

namespace CP

open Spec

/-- Four bytes, least first. -/
def le4 (i : Int) : Bytes :=
  let n := (i % 4294967296).toNat
  [UInt8.ofNat n, UInt8.ofNat (n / 256), UInt8.ofNat (n / 65536), UInt8.ofNat (n / 16777216)]

/-- A list filled up to a length. -/
def fill {α : Type} (n : Nat) (x : α) (l : List α) : List α := l ++ List.replicate (n - l.length) x

/-- A header: the sector table is in sector 0, the directory from sector 1 on, the short
sector table in sector 4; streams of at least `minSize` bytes are not short. -/
def docHeader (minSize : Int) : Bytes :=
  fill 28 0 oleSignature ++ [0xFE, 0xFF, 7, 0, 3, 0] ++ List.replicate 10 0 ++ le4 1 ++ le4 1 ++ le4 0 ++ le4 minSize ++
    le4 4 ++ le4 1 ++ le4 (-2) ++ le4 0 ++ (fill 109 (-1) [0]).flatMap le4

/-- A directory entry with a name of one letter. -/
def docEntry (name : UInt8) (etype : UInt8) (left right root first size : Int) : Bytes :=
  fill 64 0 [name, 0] ++ [4, 0, etype, 0] ++ le4 left ++ le4 right ++ le4 root ++ List.replicate 36 0 ++ le4 first ++
    le4 size ++ le4 0

/-- A document with one stream `W`: its first sector and size, its place in the sector
table, the container for short streams (of 16 bytes), the short sector table, and more
sectors. -/
def doc (minSize first size : Int) (sat : List Int) (ssat : List Int) (more : Bytes) : Bytes :=
  docHeader minSize ++
    (fill 32 (-1) ([-3, 2, -2, -2, -2] ++ sat)).flatMap le4 ++
    docEntry 82 5 (-1) (-1) 1 3 16 ++ docEntry 87 2 (-1) (-1) (-1) first size ++
    fill 128 0 ((List.range 16).map UInt8.ofNat) ++
    (fill 32 (-1) ssat).flatMap le4 ++ more

/-- Characters of two bytes each, for the examples. -/
def utf16Latin : Bytes → Except Exc (List Char)
  | a :: 0 :: rest => (utf16Latin rest).map (Char.ofNat a.toNat :: ·)
  | [] => .ok []
  | _ => .error .valueError

/-- The bytes of the stream `W`, read from a document. -/
def readW (mem : Bytes) (ignore : Bool) : Option (Except Exc (Option Bytes)) :=
  match CompDoc.init utf16Latin 10 20 mem ignore with
  | some (.ok cd) => (cd.getNamedStream id 20 ['W']).map (·.2)
  | some (.error e) => some (.error e)
  | none => none

/-- The bytes of the stream `W`, located in a document. -/
def locateW (mem : Bytes) (ignore : Bool) : Option (Except Exc (Option Bytes)) :=
  match CompDoc.init utf16Latin 10 20 mem ignore with
  | some (.ok cd) => (cd.locateNamedStream id 20 ['W']).map fun p =>
      p.2.map fun l => l.map fun l => (l.data.drop l.offset).take l.len.toNat
  | some (.error e) => some (.error e)
  | none => none

/-- A document with a stream of 130 bytes in the sectors 6 and 5. -/
def docW : Bytes := doc 1 6 130 [-2, 5] [-1] (List.replicate 128 1 ++ List.replicate 128 2)

example : docW.length = 512 + 7 * 128 := by decide +kernel

-- get_named_stream and locate_named_stream of it
example : readW docW false = some (.ok (some (List.replicate 128 2 ++ [1, 1]))) := by decide +kernel
example : locateW docW false = readW docW false := by decide +kernel

-- a short stream: 10 bytes of the container, its second short sector first
example : readW (doc 100 1 10 [] [-2, 0] []) false = some (.ok (some [8, 9, 10, 11, 12, 13, 14, 15, 0, 1])) := by
  decide +kernel
example : locateW (doc 100 1 10 [] [-2, 0] []) false = readW (doc 100 1 10 [] [-2, 0] []) false := by decide +kernel

/-- A check of the opened document. -/
def checkDoc (mem : Bytes) (ignore : Bool) (f : CompDoc → Bool) : Bool :=
  match CompDoc.init utf16Latin 10 20 mem ignore with
  | some (.ok cd) => f cd
  | _ => false

theorem checkDoc_spec {mem : Bytes} {ignore : Bool} {f : CompDoc → Bool} (h : checkDoc mem ignore f = true) :
    ∃ cd, CompDoc.init utf16Latin 10 20 mem ignore = some (.ok cd) ∧ f cd = true := by
  unfold checkDoc at h
  split at h
  · rename_i cd hcd
    exact ⟨cd, hcd, h⟩
  · simp at h

theorem namesDiffer_of_nodup {low : List Char → List Char} {dl : List DirNode} (h : (dl.map fun d => low d.name).Nodup) :
    NamesDiffer low dl := by
  intro p c c' d d' _ _ hc hc' hn
  obtain ⟨h1, h2⟩ := List.getElem?_eq_some_iff.1 hc
  obtain ⟨h1', h2'⟩ := List.getElem?_eq_some_iff.1 hc'
  have hp := List.pairwise_iff_getElem.1 h
  rcases Nat.lt_trichotomy c c' with hlt | heq | hlt
  · have := hp c c' (by simpa using h1) (by simpa using h1') hlt
    simp [h2, h2', hn] at this
  · exact heq
  · have := hp c' c (by simpa using h1') (by simpa using h1) hlt
    simp [h2, h2', hn] at this

/-- C48 does not hold as it stands: a short sector table that leads from a sector to itself
makes `get_named_stream` and `locate_named_stream` run forever. -/
theorem C48_counterexample : ∃ (mem : Bytes) (cd : CompDoc),
    CompDoc.init utf16Latin 10 20 mem false = some (.ok cd) ∧
      (∀ fuel, cd.getNamedStream id fuel ['W'] = none) ∧ ∀ fuel, cd.locateNamedStream id fuel ['W'] = none := by
  obtain ⟨cd, h1, h2⟩ := checkDoc_spec (mem := doc 100 0 10 [] [0] []) (ignore := false)
    (f := fun cd => match cd.dirSearch id (splitChar '/' ['W']) 0 with
      | .ok (some (_, d)) => decide (d.size < cd.minSizeStd ∧ d.size ≤ cd.memDataLen ∧ d.first = 0 ∧ cd.ssat[0]? = some 0)
      | _ => false) (by decide +kernel)
  split at h2
  · rename_i c d hs
    have ⟨g1, g2, g3, g4⟩ := of_decide_eq_true h2
    have he : Endless cd.ssat d.first := ⟨fun _ => 0, by rw [g3]; rfl, fun _ => by rw [g4]; rfl⟩
    refine ⟨_, cd, h1, ?_, ?_⟩
    · intro fuel
      cases hg : cd.getNamedStream id fuel ['W'] with
      | none => rfl
      | some r => exact absurd ⟨c, d, hs, g1, he⟩ ((C48_get_ends_iff id cd ['W']).1 ⟨fuel, r, hg⟩)
    · intro fuel
      cases hg : cd.locateNamedStream id fuel ['W'] with
      | none => rfl
      | some r => exact absurd ⟨c, d, hs, g2, g1, he⟩ ((C48_locate_ends_iff id cd ['W']).1 ⟨fuel, r, hg⟩)
  · simp at h2

/-- C49 does not hold as it stands.  If the last sector of the file is not complete and has
a successor on the chain of the stream, `locate_named_stream` gives more bytes of the
successor than `get_named_stream`.  With `ignore_workbook_corruption` one gives a stream in
sectors already in use where the other raises an exception. -/
theorem C49_counterexample :
    (∃ (mem a b : Bytes), readW mem false = some (.ok (some a)) ∧ locateW mem false = some (.ok (some b)) ∧ a ≠ b) ∧
    (∃ (mem b : Bytes), readW mem true = some (.error .compDocError) ∧ locateW mem true = some (.ok (some b))) := by
  refine ⟨⟨doc 1 6 130 [-2, 5] [-1] (List.replicate 128 1 ++ [2]), [2, 1, 1], 2 :: List.replicate 128 1, ?_, ?_, ?_⟩,
    ⟨doc 1 3 16 [] [-1] [], (List.range 16).map UInt8.ofNat, ?_, ?_⟩⟩ <;> decide +kernel

-- the hypotheses of the theorems can be met
example : ∃ cd, Opened utf16Latin docW cd ∧ NamesDiffer id cd.dirlist ∧ cd.ignoreCorruption = false ∧
    (docW.length - 512) % cd.secSize = 0 ∧
    (∃ seen' b, cd.getNamedStream id 20 ['W'] = some (seen', .ok (some b))) ∧
    (∃ seen' l, cd.locateNamedStream id 20 ['W'] = some (seen', .ok (some l)) ∧ 0 ≤ l.len) ∧
    ∃ d, StreamAt id cd.dirlist (splitChar '/' ['W']) 0 1 d ∧ cd.minSizeStd ≤ d.size ∧ Chain cd.sat d.first [6, 5] ∧
      (∀ x ∈ [6, 5], cd.seen[x]? = some 0) ∧ 0 < d.size ∧ d.size ≤ docW.length - 512 ∧
      ([6, 5].length - 1) * cd.secSize < d.size ∧ d.size ≤ [6, 5].length * cd.secSize := by
  obtain ⟨cd, h1, h2⟩ := checkDoc_spec (mem := docW) (ignore := false)
    (f := fun cd => decide ((cd.dirlist.map fun d => id d.name).Nodup ∧ cd.ignoreCorruption = false ∧
      (docW.length - 512) % cd.secSize = 0 ∧ cd.sat[6]? = some 5 ∧ cd.sat[5]? = some (-2) ∧ ∀ x ∈ [6, 5], cd.seen[x]? = some 0) &&
      (match cd.getNamedStream id 20 ['W'] with | some (_, .ok (some _)) => true | _ => false) &&
      (match cd.locateNamedStream id 20 ['W'] with | some (_, .ok (some l)) => decide (0 ≤ l.len) | _ => false) &&
      (match cd.dirSearch id (splitChar '/' ['W']) 0 with
        | .ok (some (c, d)) => decide (c = 1 ∧ cd.minSizeStd ≤ d.size ∧ d.first = 6 ∧ 0 < d.size ∧ d.size ≤ docW.length - 512 ∧
            ([6, 5].length - 1) * cd.secSize < d.size ∧ d.size ≤ [6, 5].length * cd.secSize)
        | _ => false)) (by decide +kernel)
  simp only [Bool.and_eq_true] at h2
  obtain ⟨⟨⟨h2, h3⟩, h4⟩, h5⟩ := h2
  obtain ⟨g1, g2, g3, g4, g5, g6⟩ := of_decide_eq_true h2
  have ho : Opened utf16Latin docW cd := ⟨_, _, _, cd, h1, rfl, rfl⟩
  refine ⟨cd, ho, namesDiffer_of_nodup g1, g2, g3, ?_, ?_, ?_⟩
  · split at h3
    · rename_i s b hs
      exact ⟨s, b, hs⟩
    · simp at h3
  · split at h4
    · rename_i s l hs
      exact ⟨s, l, hs, of_decide_eq_true h4⟩
    · simp at h4
  · split at h5
    · rename_i c d hs
      obtain ⟨rfl, k1, k2, k3⟩ := of_decide_eq_true h5
      refine ⟨d, dirSearch_sound (opened_facts ho).1 hs, k1, ?_, g6, k3⟩
      rw [k2]
      exact .next (s := 6) g4 (.next (s := 5) g5 .stop)
    · simp at h5

end CP
