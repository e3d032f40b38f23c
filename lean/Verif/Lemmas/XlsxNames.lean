import Verif.Model.XlsxNames
import Verif.Spec.XlsxNames
import Verif.Lemmas.XlsxBook
/-!
# Lemmas: defined names and comments of an xlsx file
-/

namespace CP
open Spec

theorem firstExc_none {l : List (Option Exc)} : firstExc l = none ↔ ∀ o ∈ l, o = none := by
  induction l with
  | nil => simp [firstExc]
  | cons o l ih => cases o <;> simp [firstExc, ih]

theorem numberText_int {E : XlEnv} (hE : XlLaws E) {s : Option (List Char)} {n : Nat} (h : NumberText s n) : ∃ t, s = some t ∧ t ≠ [] ∧ E.int t = .ok n := by
  obtain ⟨ds, rfl, h1, h2, rfl⟩ := h
  exact ⟨ds, rfl, h1, hE.digits ds h1 h2⟩

theorem unsignedExc_none {E : XlEnv} (hE : XlLaws E) {e : Elem} {name : List Char} (h : NumberAttr e name) : unsignedExc E (e.get (bare name)) = none := by
  rcases h with h | ⟨n, h⟩
  · rw [h]; rfl
  · obtain ⟨t, h1, h2, h3⟩ := numberText_int hE h
    rw [h1]
    cases t with
    | nil => cases h2 rfl
    | cons c t =>
      unfold unsignedExc truthyText
      dsimp only
      rw [h3]
      dsimp only
      rw [if_pos (by omega)]

theorem booleanExc_none {e : Elem} {name : List Char} (h : BoolAttr e name) : booleanExc (e.get (bare name)) = none := by
  obtain ⟨n, h⟩ := h
  unfold booleanExc
  rw [boolOf_eq h]

theorem definedNames_none {E : XlEnv} (hE : XlLaws E) {e : Elem} (h : DefinedNamesAre e) : definedNames E e = none := by
  refine firstExc_none.2 fun o ho => ?_
  obtain ⟨d, hd, rfl⟩ := List.mem_map.1 ho
  obtain ⟨h1, h2, h3, h4, h5, h6⟩ := h d hd
  refine firstExc_none.2 fun o ho => ?_
  have k1 := unsignedExc_none hE h1
  have k2 := unsignedExc_none hE h2
  have k3 := booleanExc_none h3
  have k4 := booleanExc_none h4
  have k5 := booleanExc_none h5
  have k6 := booleanExc_none h6
  simp only [List.mem_cons, List.not_mem_nil, or_false] at ho
  rcases ho with rfl | rfl | rfl | rfl | rfl | rfl <;> assumption

theorem sheetComments_none {E : XlEnv} (hE : XlLaws E) {root : Elem} (h : CommentsAre root) : sheetComments E root = none := by
  obtain ⟨authors, list, rest, h1, h2, h3, h4⟩ := h
  unfold sheetComments
  rw [h1]
  dsimp only
  rw [if_neg (fun hn => hn h2), if_neg (fun hn => hn h3)]
  refine firstExc_none.2 fun o ho => ?_
  obtain ⟨e, he, rfl⟩ := List.mem_map.1 ho
  obtain ⟨he1, he2⟩ := List.mem_filter.1 he
  obtain ⟨⟨n, k1, k2⟩, ref, r, c, k3, k4, k5⟩ := h4 e he1 (of_decide_eq_true he2)
  obtain ⟨t, a1, _, a3⟩ := numberText_int hE k1
  unfold commentExc
  have a1' : e.get (bare ['a', 'u', 't', 'h', 'o', 'r', 'I', 'd']) = some t := a1
  have k3' : e.get (bare ['r', 'e', 'f']) = some ref := k3
  rw [a1']
  dsimp only [XlEnv.intOpt]
  rw [a3]
  dsimp only
  have : pyIndex (authors.children.map Elem.text) (n : Int) = .ok ((authors.children.map Elem.text)[n]'(by simpa using k2)) := by
    unfold pyIndex
    have hi : ¬ ((n : Int) < 0) := by omega
    simp [hi, k2]
  rw [this, k3']
  dsimp only
  rw [cellName_ok hE k4, if_pos k5]

theorem workbookAre_mono {E E' : XlEnv} (h : ∀ e, E.names e = none → E'.names e = none) {rels : List (List Char × List Char × List Char)} {m m' : Nat}
    {es : List Elem} {sheets : List (List Char × List Char)} (hw : WorkbookAre E rels m es m' sheets) : WorkbookAre E' rels m es m' sheets := by
  induction hw with
  | nil => exact .nil
  | other h1 h2 h3 _ ih => exact .other h1 h2 h3 ih
  | names h1 h2 _ ih => exact .names h1 (h _ h2) ih
  | mode h1 h2 _ ih => exact .mode h1 h2 ih
  | sheet h1 h2 h3 h4 h5 h6 _ ih => exact .sheet h1 h2 h3 h4 h5 h6 ih
  | otherSheet h1 h2 h3 h4 h5 h6 _ ih => exact .otherSheet h1 h2 h3 h4 h5 h6 ih

theorem sheetRelsOk_mono {E E' : XlEnv} (hl : E'.low = E.low) (hp : E'.path = E.path) (h : ∀ e, E.notes e = none → E'.notes e = none) {zf : Zip}
    {path : List Char} (hs : SheetRelsOk E zf path) : SheetRelsOk E' zf path := by
  have hn : plainName E' = plainName E := by unfold plainName; rw [hl]
  have hh : NoPart E' zf = NoPart E zf := by unfold NoPart HasPart; rw [hn]
  obtain ⟨last, h1, h2⟩ := hs
  refine ⟨last, h1, ?_⟩
  rw [hh, hn]
  rcases h2 with h2 | ⟨root, h2, h3, h4⟩
  · exact .inl h2
  · refine .inr ⟨root, h2, h3, fun e he => ?_⟩
    obtain ⟨typ, target, t, k1, k2, k3, k4⟩ := h4 e he
    refine ⟨typ, target, t, k1, k2, k3, ?_⟩
    rw [hp]
    rcases k4 with k4 | k4 | ⟨notes, k4, k5, k6⟩
    · exact .inl k4
    · exact .inr (.inl k4)
    · exact .inr (.inr ⟨notes, k4, k5, h _ k6⟩)

theorem each_mono {α β : Type} {P Q : α → β → Prop} (h : ∀ a b, P a b → Q a b) {as : List α} {bs : List β} (he : Each P as bs) : Each Q as bs := by
  induction he with
  | nil => exact .nil
  | cons h1 _ ih => exact .cons (h _ _ h1) ih

theorem bookIs_mono {E E' : XlEnv} (hl : E'.low = E.low) (hp : E'.path = E.path) (hf : E'.float = E.float)
    (h1 : ∀ e, E.names e = none → E'.names e = none) (h2 : ∀ e, E.notes e = none → E'.notes e = none) (h3 : ∀ e, E'.props e = none) {zf : Zip} {mode : Nat}
    {sheets : List (List Char × List CellOp)} (h : BookIs E zf mode sheets) : BookIs E' zf mode sheets := by
  have hn : plainName E' = plainName E := by unfold plainName; rw [hl]
  have hh : HasPart E' = HasPart E := by unfold HasPart; rw [hn]
  have hN : NoPart E' = NoPart E := by unfold NoPart; rw [hh]
  have hR : RelsAre E' = RelsAre E := by unfold RelsAre RelOf PathOf; rw [hn]
  have hS : PartStyles E' = PartStyles E := by unfold PartStyles; rw [hN, hh]
  have hT : PartStrings E' = PartStrings E := by unfold PartStrings; rw [hN, hh]
  obtain ⟨hz, relsRoot, rels, wb, targets, types, s1, s2, k1, k2, k3, k4, k5, k6, k7, k8, k9⟩ := h
  unfold BookIs
  rw [hn, hh, hR, hS, hT, hf]
  refine ⟨hz, relsRoot, rels, wb, targets, types, s1, s2, k1, k2, k3, workbookAre_mono h1 k4, fun e _ => h3 e, k6, k7, k8, each_mono ?_ k9⟩
  intro s t ⟨a1, a2, a3⟩
  unfold SheetPart
  rw [hh]
  exact ⟨a1, a2, sheetRelsOk_mono hl hp h2 a3⟩

end CP
