import Verif.Lemmas.CompFile
import Verif.Model.XlsFile
import Verif.Spec.XlsFile
import Verif.Props.XlsBook
import Verif.Props.CompDocExamples
/-!
# C69: compound documents in order; C70: xls files
-/

namespace CP
open CP.Spec

variable {σ τ : Type}

/-! ## C69 -/

theorem doc_facts {utf16 : Bytes → Except Exc (List Char)} {height : Nat} {mem : Bytes} {D : Doc} (h : DocIs utf16 height mem D) :
    512 ≤ mem.length ∧ 0 < D.secSize := by
  obtain ⟨msatx, sats, dirs, conts, ssats, h⟩ := h
  obtain ⟨hm, m, mfirst, hh, hh109, _⟩ := h.master
  obtain ⟨k, j, _, _, _, _, hsec, _⟩ := h.sizes
  refine ⟨?_, by rw [hsec]; exact Nat.pow_pos (by decide)⟩
  have := hh.1
  rw [List.length_take, List.length_drop] at this
  omega

/-- A document in order can be opened. -/
theorem doc_opens {utf16 : Bytes → Except Exc (List Char)} {height : Nat} {mem : Bytes} {D : Doc} (h : DocIs utf16 height mem D)
    {depth : Nat} (hd : height < depth) (ignore : Bool) : ∃ fuel0, ∀ fuel, fuel0 ≤ fuel →
      ∃ cd, CompDoc.init utf16 depth fuel mem ignore = some (.ok cd) ∧ ReadsDoc mem D ignore cd ∧ cd.HasTree := by
  obtain ⟨msatx, sats, dirs, conts, ssats, h⟩ := h
  refine ⟨msatx.length + dirs.length + conts.length + 1, fun fuel hf => ?_⟩
  obtain ⟨cd, e, hr⟩ := init_complete h hd ignore (fuel := fuel) (by omega)
  exact ⟨cd, e, hr, (opened_facts ⟨depth, fuel, ignore, cd, e, rfl, rfl⟩).1⟩

/-- C69: a compound document that is in order can be opened, and each of its streams read:
`get_named_stream` gives its content, and `locate_named_stream` data with its content at the
offset and of the length given.  (The directory tree may not be higher than the depth of
calls; `fuel0` says that loops end.) -/
theorem C69_document (low : List Char → List Char) {utf16 : Bytes → Except Exc (List Char)} {height : Nat} {mem : Bytes} {D : Doc}
    (h : DocIs utf16 height mem D) (hn : NamesDiffer low D.dir) {depth : Nat} (hd : height < depth) (ignore : Bool)
    {qname : List Char} {b : Bytes} (hs : StreamIs low mem D (splitChar '/' qname) b) :
    ∃ fuel0, ∀ fuel, fuel0 ≤ fuel → ∃ cd, CompDoc.init utf16 depth fuel mem ignore = some (.ok cd) ∧
      (∃ seen', cd.getNamedStream low fuel qname = some (seen', .ok (some b))) ∧
      ∃ seen' l, cd.locateNamedStream low fuel qname = some (seen', .ok (some l)) ∧
        (l.data.drop l.offset).take b.length = b ∧ l.len = b.length := by
  obtain ⟨h512, hpos⟩ := doc_facts h
  obtain ⟨f1, h1⟩ := doc_opens h hd ignore
  obtain ⟨f2, h2⟩ := streams_complete hn h512 hpos hs
  refine ⟨max f1 f2, fun fuel hf => ?_⟩
  obtain ⟨cd, e, hr, ht⟩ := h1 fuel (by omega)
  obtain ⟨g1, g2⟩ := h2 ignore cd hr ht fuel (by omega)
  exact ⟨cd, e, g1, g2⟩

/-- A document without extension of the master table, from what can be computed. -/
theorem docIs_of {utf16 : Bytes → Except Exc (List Char)} {height : Nat} {mem : Bytes} {D : Doc} {sats dirs conts ssats : List Nat}
    (k j : Nat) (parts : List Bytes)
    (h1 : mem.take 8 = oleSignature ∧ (mem.drop 28).take 2 = [0xFE, 0xFF] ∧ 3 ≤ k ∧ k ≤ 20 ∧ j ≤ k ∧
      (mem.drop 30).take 4 = leBytes 2 k ++ leBytes 2 j ∧ D.secSize = 2 ^ k ∧ D.shortSize = 2 ^ j ∧ 512 ≤ mem.length ∧
      headInt mem 56 = D.minSize ∧ headInt mem 68 = -2 ∧ headInt mem 72 = 0)
    (h2 : (∀ e ∈ leInts 109 ((mem.drop 76).take 436), e = -1 ∨ e = -2 ∨ 0 ≤ e) ∧
      sats.map Int.ofNat = (leInts 109 ((mem.drop 76).take 436)).filter fun e : Int => 0 ≤ e)
    (h3 : (sats.flatMap (sector mem 512 D.secSize)).length = 4 * D.sat.length ∧
      leInts D.sat.length (sats.flatMap (sector mem 512 D.secSize)) = D.sat)
    (h4 : Chain D.sat (headInt mem 48) dirs)
    (h5 : dirs.flatMap (sector mem 512 D.secSize) = parts.flatten)
    (h6 : Each2 (fun (b : Bytes) (d : DirNode) => b.length = 128 ∧ dirNode utf16 b = .ok d ∧ (b[64]? = some 1 → b[65]? ≠ some 0))
      parts D.dir)
    (h7 : ∃ root : DirNode, D.dir[0]? = some root ∧ root.etype = 5 ∧ TreeOf D.dir height root.root ∧
      (root.size = 0 ∧ conts = [] ∧ D.container = [] ∧ ssats = [] ∧ D.ssat = [] ∨
        0 < root.size ∧ Chain D.sat root.first conts ∧ ChainBytes mem 512 D.secSize conts root.size D.container ∧
        headInt mem 64 = ssats.length ∧ Chain D.sat (headInt mem 60) ssats ∧
          (ssats.flatMap (sector mem 512 D.secSize)).length = 4 * D.ssat.length ∧
          leInts D.ssat.length (ssats.flatMap (sector mem 512 D.secSize)) = D.ssat))
    (h8 : (sats ++ dirs ++ conts ++ ssats).Nodup ∧ (∀ x ∈ sats ++ ssats, Whole mem 512 D.secSize x) ∧
      (∀ x ∈ dirs ++ conts, Present mem D.secSize x) ∧ D.used = sats ++ dirs ++ conts ++ ssats) : DocIs utf16 height mem D := by
  obtain ⟨a1, a2, a3, a4, a5, a6, a7, a8, a9, a10, a11, a12⟩ := h1
  have at' : ∀ {p : Nat} {v : Int}, p + 4 ≤ 512 → headInt mem p = v → IntAt mem p v := by
    intro p v hp hv
    rw [← hv]
    exact leInt_at (by omega)
  have ints : ∀ {b : Bytes} {xs : List Int}, b.length = 4 * xs.length → leInts xs.length b = xs → IntsOf b xs := by
    intro b xs hl hx
    have := leInts_of hl
    rwa [hx] at this
  refine ⟨[], sats, dirs, conts, ssats, ⟨a1, a2, ⟨k, j, a3, a4, a5, a6, a7, a8⟩, at' (by omega) a10, ?_, ints h3.1 h3.2,
    ⟨_, at' (by omega) rfl, h4⟩, ⟨parts, h5, ?_⟩, ?_, by simpa using h8.1, by simpa using h8.2.1, h8.2.2.1, by simpa using h8.2.2.2⟩⟩
  · refine ⟨_, [], -2, leInts_of (n := 109) (by rw [List.length_take, List.length_drop]; omega), leInts_length _ _,
      at' (by omega) a11, at' (by omega) (by simpa using a12), .inl ⟨rfl, rfl, .inl rfl⟩, by simpa using h2.1, by simpa using h2.2⟩
  · clear h5
    generalize D.dir = dl at h6
    induction h6 with
    | nil => exact .nil
    | cons h _ ih => exact .cons ⟨h.1, dirNode_sound h.2.1, h.2.2⟩ ih
  · obtain ⟨root, b1, b2, b3, b4⟩ := h7
    refine ⟨root, b1, b2, b3, ?_⟩
    rcases b4 with b4 | ⟨c1, c2, c3, c4, c5, c6, c7⟩
    · exact .inl b4
    · exact .inr ⟨c1, c2, c3, _, at' (by omega) rfl, at' (by omega) c4, c5, ints c6 c7⟩

theorem ok_of_toOption {α : Type} {x : Except Exc α} {a : α} (h : x.toOption = some a) : x = .ok a := by
  cases x with
  | error e => cases h
  | ok b => cases h; rfl

/-- The document `docW` of the examples: two entries, a container of 16 bytes. -/
def docWIs : Doc where
  secSize := 128
  shortSize := 8
  minSize := 1
  sat := fill 32 (-1) [-3, 2, -2, -2, -2, -2, 5]
  ssat := List.replicate 32 (-1)
  dir := [⟨['R'], 5, -1, -1, 1, 3, 16⟩, ⟨['W'], 2, -1, -1, -1, 6, 130⟩]
  container := (List.range 16).map UInt8.ofNat
  used := [0, 1, 2, 3, 4]

theorem docW_is : DocIs utf16le 1 docW docWIs :=
  docIs_of (sats := [0]) (dirs := [1, 2]) (conts := [3]) (ssats := [4]) 7 3
    [docEntry 82 5 (-1) (-1) 1 3 16, docEntry 87 2 (-1) (-1) (-1) 6 130] (by decide +kernel) (by decide +kernel) (by decide +kernel)
    (.next (s := 1) (t := 2) (by decide +kernel) (.next (s := 2) (t := -2) (by decide +kernel) .stop)) (by decide +kernel)
    (.cons ⟨by decide +kernel, ok_of_toOption (by decide +kernel), by decide +kernel⟩
      (.cons ⟨by decide +kernel, ok_of_toOption (by decide +kernel), by decide +kernel⟩ .nil))
    ⟨_, rfl, rfl, .node (c := 1) rfl (.none (by decide)) (.none (by decide)) (fun h => (nomatch h)),
      .inr ⟨by decide, .next (s := 3) (t := -2) (by decide +kernel) .stop, by unfold ChainBytes Whole; decide +kernel, by decide +kernel,
        .next (s := 4) (t := -2) (by decide +kernel) .stop, by decide +kernel, by decide +kernel⟩⟩
    (by unfold Whole Present; decide +kernel)

theorem docW_stream : StreamIs id docW docWIs (splitChar '/' ['W']) (List.replicate 128 2 ++ [1, 1]) := by
  refine ⟨1, ⟨['W'], 2, -1, -1, -1, 6, 130⟩, [6, 5],
    .stream (name := ['W']) ⟨_, rfl, .here (c := 1) rfl⟩ rfl rfl rfl, by decide, by decide +kernel, .inl ⟨by decide, ?_, ?_, ?_, by decide +kernel⟩⟩
  · exact .next (s := 6) (t := 5) (by decide +kernel) (.next (s := 5) (t := -2) (by decide +kernel) .stop)
  · unfold Present; decide +kernel
  · unfold ChainBytes Whole; decide +kernel

-- the hypotheses of C69 can be met
example : ∃ fuel cd seen', CompDoc.init utf16le 2 fuel docW false = some (.ok cd) ∧
    cd.getNamedStream id fuel ['W'] = some (seen', .ok (some (List.replicate 128 2 ++ [1, 1]))) := by
  obtain ⟨f, h⟩ := C69_document id docW_is (namesDiffer_of_nodup (by decide)) (depth := 2) (by decide) false docW_stream
  obtain ⟨cd, e, ⟨seen', g⟩, _⟩ := h f (Nat.le_refl _)
  exact ⟨f, cd, seen', e, g⟩

/-! ## C70 -/

theorem docIs_utf16le {utf16 : Bytes → Except Exc (List Char)} (hu : DecodesUtf16 utf16) {height : Nat} {mem : Bytes} {D : Doc}
    (h : DocIs utf16 height mem D) : DocIs utf16le height mem D := by
  obtain ⟨msatx, sats, dirs, conts, ssats, h⟩ := h
  refine ⟨msatx, sats, dirs, conts, ssats, { h with entries := ?_ }⟩
  obtain ⟨parts, e, hp⟩ := h.entries
  refine ⟨parts, e, ?_⟩
  clear e
  generalize D.dir = dl at hp
  induction hp with
  | nil => exact .nil
  | cons h _ ih =>
    refine .cons ⟨h.1, { h.2.1 with name := ?_ }, h.2.2⟩ ih
    obtain ⟨n0, n1, a, b, c, d⟩ := h.2.1.name
    refine ⟨n0, n1, a, b, c, fun hl => ?_⟩
    rw [(hu _ _).1 (d hl)]
    exact utf16le_text _

theorem decodes_utf16le : DecodesUtf16 utf16le := fun _ _ => ⟨utf16le_sound, fun h => by rw [h]; exact utf16le_text _⟩

theorem locate_noEntry {low : List Char → List Char} {mem : Bytes} {D : Doc} {ignore : Bool} {cd : CompDoc}
    (hr : ReadsDoc mem D ignore cd) (ht : cd.HasTree) {name : List Char} (hno : NoEntry low D name)
    (hq : splitChar '/' name = [name]) (fuel : Nat) : cd.locateNamedStream low fuel name = some (cd.seen, .ok none) := by
  have : cd.dirSearch low [name] 0 = .ok none := by
    rw [CompDoc.dirSearch, List.find?_eq_none.2]
    intro c hc hl
    have hk := kid_of_mem ht (mem_children.1 hc)
    cases hd : cd.dirlist[c]? with
    | none => simp [hd] at hl
    | some d =>
      simp [hd] at hl
      rw [hr.dir] at hk hd
      exact hno c d hk hd hl
  unfold CompDoc.locateNamedStream
  rw [hq, this]

theorem xlsBook_ne {whole : Bool} {c : BookCtx} {stream : Bytes} {mode : Nat} {sheets : List (List Char × List CellOp)}
    (h : XlsBookIs whole c stream mode sheets) : ∃ rest, stream = 9 :: 8 :: rest := by
  obtain ⟨bof, rs, _, _, after, hs, _⟩ := h
  exact ⟨leBytes 2 bof.length ++ bof ++ (rs.flatMap recordBytes ++ after), by rw [hs]; simp [recordBytes, leBytes]⟩

/-- The stream of the book is found. -/
theorem findBook_complete {low : List Char → List Char} {height : Nat} {file : Bytes} {D : Doc} (h : DocIs utf16le height file D)
    (hn : NamesDiffer low D.dir) {stream : Bytes} (hb : BookStream low file D stream) (hne : stream ≠ []) {depth : Nat} (hd : height < depth) :
    ∃ fuel0, ∀ fuel, fuel0 ≤ fuel → ∃ (mem : Bytes) (base : Nat), loadXls low depth fuel file = some (.ok (mem, base)) ∧
      (mem.drop base).take stream.length = stream := by
  obtain ⟨h512, hpos⟩ := doc_facts h
  obtain ⟨f1, h1⟩ := doc_opens h hd false
  have hsig : pySlice file 0 8 = oleSignature := by
    obtain ⟨_, _, _, _, _, h⟩ := h
    rw [pySlice_eq]
    exact h.signature
  have hfile : file ≠ [] := by
    rintro rfl
    simp at h512
  have hdata : ∀ {l : Located}, (l.data.drop l.offset).take stream.length = stream → l.data ≠ [] := by
    intro l hl h0
    rw [h0] at hl
    simp at hl
    exact hne hl
  rcases hb with hs | ⟨hno, hs⟩
  · obtain ⟨f2, h2⟩ := streams_complete (qname := "Workbook".toList) hn h512 hpos hs
    refine ⟨max f1 f2, fun fuel hf => ?_⟩
    obtain ⟨cd, e, hr, ht⟩ := h1 fuel (by omega)
    obtain ⟨_, seen', l, g, g1, g2⟩ := h2 false cd hr ht fuel (by omega)
    refine ⟨l.data, l.offset, ?_, g1⟩
    unfold loadXls
    rw [if_neg hfile, if_neg (by simp [hsig]), e]
    dsimp only
    rw [bookNames, findBook, g]
    dsimp only
    rw [if_neg (hdata g1)]
  · obtain ⟨f2, h2⟩ := streams_complete (qname := "Book".toList) hn h512 hpos hs
    refine ⟨max f1 f2, fun fuel hf => ?_⟩
    obtain ⟨cd, e, hr, ht⟩ := h1 fuel (by omega)
    obtain ⟨_, seen', l, g, g1, g2⟩ := h2 false cd hr ht fuel (by omega)
    refine ⟨l.data, l.offset, ?_, g1⟩
    unfold loadXls
    rw [if_neg hfile, if_neg (by simp [hsig]), e]
    dsimp only
    rw [bookNames, findBook, locate_noEntry hr ht hno rfl]
    dsimp only
    rw [findBook, g]
    dsimp only
    rw [if_neg (hdata g1)]

/-- C70 in full: an xls file is read.  (`fuel0` says that loops end.) -/
def XlsFileRead (whole : Bool) : Prop :=
  ∀ (σ τ : Type) (E : BookEnv σ τ) (c : BookCtx), BookFits E c →
    ∀ (low : List Char → List Char) (height : Nat) (file : List UInt8) (mode : Nat) (sheets : List (List Char × List CellOp)),
      XlsFileIs whole c low height file mode sheets → ∀ depth, height < depth →
      ∃ fuel0, ∀ fuel, fuel0 ≤ fuel → ∃ gs, openXls E low depth fuel false file = some (.ok (mode, gs)) ∧
        Each (fun (s : List Char × List CellOp) (b : BookSheet) => b.name = s.1 ∧ GridHolds s.2 b.grid) sheets gs

/-- C70 within the limits of C68. -/
theorem C70_file_partial : XlsFileRead true := by
  intro σ τ E c hf low height file mode sheets h depth hd
  rcases h with h | ⟨utf16, D, stream, hu, hdoc, hn, hb, h⟩
  · refine ⟨0, fun fuel _ => ?_⟩
    obtain ⟨gs, e, hg⟩ := C68_stream_partial σ τ E c hf _ _ _ h [] []
    simp only [List.nil_append, List.append_nil, List.length_nil] at e
    obtain ⟨rest, hr⟩ := xlsBook_ne h
    refine ⟨gs, ?_, hg⟩
    unfold openXls loadXls
    rw [if_neg (by simp [hr]), if_pos (by rw [hr, pySlice_eq]; simp [oleSignature])]
    dsimp only
    rw [e]
  · have hne : stream ≠ [] := by
      obtain ⟨rest, hr⟩ := xlsBook_ne h
      simp [hr]
    obtain ⟨f, hl⟩ := findBook_complete (docIs_utf16le hu hdoc) hn hb hne hd
    refine ⟨f, fun fuel hfuel => ?_⟩
    obtain ⟨mem, base, e, hm⟩ := hl fuel hfuel
    have hlt : base ≤ mem.length := by
      rcases Nat.le_total base mem.length with hle | hle
      · exact hle
      · rw [List.drop_eq_nil_of_le hle] at hm
        simp at hm
        exact absurd hm hne
    have hmem : mem = mem.take base ++ (stream ++ (mem.drop base).drop stream.length) := by
      conv => lhs; rw [← List.take_append_drop base mem, ← List.take_append_drop stream.length (mem.drop base), hm]
    obtain ⟨gs, e', hg⟩ := C68_stream_partial σ τ E c hf _ _ _ h (mem.take base) ((mem.drop base).drop stream.length)
    rw [← hmem, List.length_take, Nat.min_eq_left hlt] at e'
    refine ⟨gs, ?_, hg⟩
    unfold openXls
    rw [e]
    dsimp only
    rw [e']

/-- A directory entry with this name. -/
def docNamed (name : List Char) (etype : UInt8) (root first size : Int) : Bytes :=
  fill 64 0 ((textUnits name).flatMap (leBytes 2)) ++ [UInt8.ofNat (2 * name.length + 2), 0, etype, 0] ++ le4 (-1) ++ le4 (-1) ++
    le4 root ++ List.replicate 36 0 ++ le4 first ++ le4 size ++ le4 0

/-- A document with a stream of that name from sector 3 on, and nothing else. -/
def docOne (name : List Char) (stream : Bytes) (sids : List Nat) : Bytes :=
  docHeader 1 ++ (fill 32 (-1) ([-3, 2, -2] ++ (sids.drop 1).map Int.ofNat ++ [-2])).flatMap le4 ++
    docNamed "Root Entry".toList 5 1 (-2) 0 ++ docNamed name 2 (-1) 3 stream.length ++ stream

def docOneIs (name : List Char) (stream : Bytes) (sids : List Nat) : Doc where
  secSize := 128
  shortSize := 8
  minSize := 1
  sat := fill 32 (-1) ([-3, 2, -2] ++ (sids.drop 1).map Int.ofNat ++ [-2])
  ssat := []
  dir := [⟨"Root Entry".toList, 5, -1, -1, 1, -2, 0⟩, ⟨name, 2, -1, -1, -1, 3, stream.length⟩]
  container := []
  used := [0, 1, 2]

theorem docWorkbook_is : DocIs utf16le 1 (docOne "Workbook".toList exBook [3, 4]) (docOneIs "Workbook".toList exBook [3, 4]) :=
  docIs_of (sats := [0]) (dirs := [1, 2]) (conts := []) (ssats := []) 7 3
    [docNamed "Root Entry".toList 5 1 (-2) 0, docNamed "Workbook".toList 2 (-1) 3 exBook.length]
    (by decide +kernel) (by decide +kernel) (by decide +kernel)
    (.next (s := 1) (t := 2) (by decide +kernel) (.next (s := 2) (t := -2) (by decide +kernel) .stop)) (by decide +kernel)
    (.cons ⟨by decide +kernel, ok_of_toOption (by decide +kernel), by decide +kernel⟩
      (.cons ⟨by decide +kernel, ok_of_toOption (by decide +kernel), by decide +kernel⟩ .nil))
    ⟨_, rfl, rfl, .node (c := 1) rfl (.none (by decide)) (.none (by decide)) (fun h => (nomatch h)),
      .inl ⟨rfl, rfl, rfl, rfl, rfl⟩⟩
    (by unfold Whole Present; decide +kernel)

theorem docWorkbook_stream : StreamIs id (docOne "Workbook".toList exBook [3, 4]) (docOneIs "Workbook".toList exBook [3, 4]) ["Workbook".toList] exBook := by
  refine ⟨1, ⟨"Workbook".toList, 2, -1, -1, -1, 3, exBook.length⟩, [3, 4], .stream ⟨_, rfl, .here (c := 1) rfl⟩ rfl rfl rfl, by decide,
    by decide +kernel, .inl ⟨by decide +kernel, ?_, ?_, ?_, by decide +kernel⟩⟩
  · exact .next (s := 3) (t := 4) (by decide +kernel) (.next (s := 4) (t := -2) (by decide +kernel) .stop)
  · unfold Present; decide +kernel
  · unfold ChainBytes Whole; decide +kernel

theorem docBook_is : DocIs utf16le 1 (docOne "Book".toList exBook5 [3]) (docOneIs "Book".toList exBook5 [3]) :=
  docIs_of (sats := [0]) (dirs := [1, 2]) (conts := []) (ssats := []) 7 3
    [docNamed "Root Entry".toList 5 1 (-2) 0, docNamed "Book".toList 2 (-1) 3 exBook5.length]
    (by decide +kernel) (by decide +kernel) (by decide +kernel)
    (.next (s := 1) (t := 2) (by decide +kernel) (.next (s := 2) (t := -2) (by decide +kernel) .stop)) (by decide +kernel)
    (.cons ⟨by decide +kernel, ok_of_toOption (by decide +kernel), by decide +kernel⟩
      (.cons ⟨by decide +kernel, ok_of_toOption (by decide +kernel), by decide +kernel⟩ .nil))
    ⟨_, rfl, rfl, .node (c := 1) rfl (.none (by decide)) (.none (by decide)) (fun h => (nomatch h)),
      .inl ⟨rfl, rfl, rfl, rfl, rfl⟩⟩
    (by unfold Whole Present; decide +kernel)

theorem docBook_stream : StreamIs id (docOne "Book".toList exBook5 [3]) (docOneIs "Book".toList exBook5 [3]) ["Book".toList] exBook5 := by
  refine ⟨1, ⟨"Book".toList, 2, -1, -1, -1, 3, exBook5.length⟩, [3], .stream ⟨_, rfl, .here (c := 1) rfl⟩ rfl rfl rfl, by decide,
    by decide +kernel, .inl ⟨by decide +kernel, ?_, ?_, ?_, by decide +kernel⟩⟩
  · exact .next (s := 3) (t := -2) (by decide +kernel) .stop
  · unfold Present; decide +kernel
  · unfold ChainBytes Whole; decide +kernel

-- the hypotheses of C70 can be met: a book of version 8 in the stream Workbook, one of version 5 in Book
example : XlsFileIs true (exBookCtx true) id 1 (docOne "Workbook".toList exBook [3, 4]) 1
    [(['S'], [.put 0 0 ⟨3, .flt 1, 1⟩, .put 0 1 ⟨1, .str ['c'], 0⟩])] :=
  .inr ⟨utf16le, _, exBook, decodes_utf16le, docWorkbook_is, namesDiffer_of_nodup (by decide), .inl docWorkbook_stream, exBook_is⟩

theorem docBook_noEntry : NoEntry id (docOneIs "Book".toList exBook5 [3]) "Workbook".toList := by
  intro c d _ hc hn
  match c, hc with
  | 0, hc => cases hc; exact absurd hn (by decide)
  | 1, hc => cases hc; exact absurd hn (by decide)

example : ∃ fuel gs, openXls exBookEnv id 2 fuel false (docOne "Book".toList exBook5 [3]) = some (.ok (0, gs)) := by
  obtain ⟨f, h⟩ := C70_file_partial Unit Unit exBookEnv _ (exBook_fits false) id 1 (docOne "Book".toList exBook5 [3]) _ _
    (.inr ⟨utf16le, _, exBook5, decodes_utf16le, docBook_is, namesDiffer_of_nodup (by decide),
      .inr ⟨docBook_noEntry, docBook_stream⟩, exBook5_is⟩) 2 (by decide)
  obtain ⟨gs, e, _⟩ := h f (Nat.le_refl _)
  exact ⟨f, gs, e⟩

/-- The full statement is false: the bare stream of C68. -/
theorem C70_counterexample : ¬ XlsFileRead false := by
  intro h
  refine C68_late_none ?_
  obtain ⟨f, hf⟩ := h Unit Unit exBookEnv _ (exBook_fits true) id 0 exLateBook _ _ (.inl exLate_is) 1 (by decide)
  obtain ⟨gs, e, hg⟩ := hf f (Nat.le_refl _)
  refine ⟨gs, ?_, hg⟩
  obtain ⟨rest, hr⟩ := xlsBook_ne exLate_is
  unfold openXls loadXls at e
  rw [if_neg (by simp [hr]), if_pos (by rw [hr, pySlice_eq]; simp [oleSignature])] at e
  exact Option.some.inj e

end CP
