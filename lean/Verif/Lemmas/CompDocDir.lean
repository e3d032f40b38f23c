import Verif.Lemmas.CompDoc
/-!
# Lemmas on the directory and on the reading of a compound document
-/

namespace CP

open Spec

/-! ### the family tree -/

theorem familyTree_ok {dl : List DirNode} {n p : Nat} {c : Int} {l : List (Nat × Nat)} (h : familyTree dl (n + 1) p c = .ok l) :
    (c < 0 ∧ l = []) ∨ ∃ (k : Nat) (d : DirNode) (a b s : List (Nat × Nat)), c = k ∧ dl[k]? = some d ∧
      familyTree dl n p d.left = .ok a ∧ familyTree dl n p d.right = .ok b ∧
      (if d.etype = 1 then familyTree dl n k d.root = .ok s else s = []) ∧ l = a ++ (p, k) :: b ++ s := by
  rw [familyTree] at h
  split at h
  · left
    simp at h
    exact ⟨by assumption, h⟩
  · right
    split at h
    · simp at h
    · rename_i d hd
      split at h
      · simp at h
      · rename_i a ha
        split at h
        · simp at h
        · rename_i b hb
          split at h
          · simp at h
          · rename_i s hs
            simp only [Except.ok.injEq] at h
            refine ⟨c.toNat, d, a, b, s, by omega, hd, ha, hb, ?_, h.symm⟩
            split at hs
            · rw [if_pos (by assumption)]; exact hs
            · rw [if_neg (by assumption)]; simpa using hs.symm

theorem familyTree_kid {dl : List DirNode} {n p : Nat} {c : Int} {l : List (Nat × Nat)} (h : familyTree dl n p c = .ok l)
    {q x : Nat} (hm : (q, x) ∈ l) : (q = p ∧ InTree dl c x) ∨ Kid dl q x := by
  induction n generalizing p c l with
  | zero => simp [familyTree] at h
  | succ n ih =>
    rcases familyTree_ok h with ⟨_, rfl⟩ | ⟨k, d, a, b, s, rfl, hd, ha, hb, hs, rfl⟩
    · simp at hm
    · simp only [List.append_assoc, List.cons_append, List.mem_append, List.mem_cons, Prod.mk.injEq] at hm
      rcases hm with hm | ⟨rfl, rfl⟩ | hm | hm
      · rcases ih ha hm with ⟨h1, h2⟩ | h1
        · exact .inl ⟨h1, .left hd h2⟩
        · exact .inr h1
      · exact .inl ⟨rfl, .here hd⟩
      · rcases ih hb hm with ⟨h1, h2⟩ | h1
        · exact .inl ⟨h1, .right hd h2⟩
        · exact .inr h1
      · split at hs
        · rcases ih hs hm with ⟨rfl, h2⟩ | h1
          · exact .inr ⟨d, hd, h2⟩
          · exact .inr h1
        · subst hs; simp at hm

theorem inTree_nonneg {dl : List DirNode} {c : Int} {x : Nat} (h : InTree dl c x) : ¬ c < 0 := by
  cases h <;> omega

theorem familyTree_all {dl : List DirNode} {n p : Nat} {c : Int} {l : List (Nat × Nat)} (h : familyTree dl n p c = .ok l)
    {x : Nat} (hx : InTree dl c x) : (p, x) ∈ l := by
  induction n generalizing c l with
  | zero => simp [familyTree] at h
  | succ n ih =>
    rcases familyTree_ok h with ⟨hneg, rfl⟩ | ⟨k, d, a, b, s, hk, hd, ha, hb, hs, rfl⟩
    · exact absurd hneg (inTree_nonneg hx)
    · cases hx with
      | here =>
        have : x = k := by omega
        subst this; simp
      | @left c' x d' hd' h' =>
        have : c' = k := by omega
        subst this
        rw [hd] at hd'
        cases hd'
        simp [ih ha h']
      | @right c' x d' hd' h' =>
        have : c' = k := by omega
        subst this
        rw [hd] at hd'
        cases hd'
        simp [ih hb h']

theorem familyTree_storage {dl : List DirNode} {n p : Nat} {c : Int} {l : List (Nat × Nat)} (h : familyTree dl n p c = .ok l)
    {q x : Nat} (hm : (q, x) ∈ l) {e : DirNode} (he : dl[x]? = some e) (h1 : e.etype = 1) {y : Nat} (hy : Kid dl x y) :
    (x, y) ∈ l := by
  induction n generalizing p c l with
  | zero => simp [familyTree] at h
  | succ n ih =>
    rcases familyTree_ok h with ⟨_, rfl⟩ | ⟨k, d, a, b, s, rfl, hd, ha, hb, hs, rfl⟩
    · simp at hm
    · simp only [List.append_assoc, List.cons_append, List.mem_append, List.mem_cons, Prod.mk.injEq] at hm ⊢
      rcases hm with hm | ⟨rfl, rfl⟩ | hm | hm
      · exact .inl (ih ha hm)
      · rw [he] at hd
        cases hd
        rw [if_pos h1] at hs
        obtain ⟨e', he', ht⟩ := hy
        rw [he] at he'
        cases he'
        exact .inr (.inr (.inr (familyTree_all hs ht)))
      · exact .inr (.inr (.inl (ih hb hm)))
      · split at hs
        · exact .inr (.inr (.inr (ih hs hm)))
        · subst hs; simp at hm

/-! ### the search -/

/-- The children come from the directory. -/
def CompDoc.HasTree (cd : CompDoc) : Prop :=
  ∃ depth root, cd.dirlist[0]? = some root ∧ familyTree cd.dirlist depth 0 root.root = .ok cd.kids

theorem mem_children {cd : CompDoc} {p c : Nat} : c ∈ cd.children p ↔ (p, c) ∈ cd.kids := by
  unfold CompDoc.children
  simp only [List.mem_map, List.mem_filter, decide_eq_true_eq]
  constructor
  · rintro ⟨⟨a, b⟩, ⟨h1, h2⟩, h3⟩
    dsimp only at h2 h3
    subst h2 h3
    exact h1
  · intro h
    exact ⟨(p, c), ⟨h, rfl⟩, rfl⟩

theorem kid_of_mem {cd : CompDoc} (ht : cd.HasTree) {p c : Nat} (h : (p, c) ∈ cd.kids) : Kid cd.dirlist p c := by
  obtain ⟨depth, root, h0, h1⟩ := ht
  rcases familyTree_kid h1 h with ⟨rfl, h2⟩ | h2
  · exact ⟨root, h0, h2⟩
  · exact h2

theorem dirSearch_sound {low : List Char → List Char} {cd : CompDoc} (ht : cd.HasTree) {path : List (List Char)} {p c : Nat}
    {d : DirNode} (h : cd.dirSearch low path p = .ok (some (c, d))) : StreamAt low cd.dirlist path p c d := by
  induction path generalizing p with
  | nil => simp [CompDoc.dirSearch] at h
  | cons name more ih =>
    rw [CompDoc.dirSearch] at h
    split at h
    · simp at h
    · rename_i q hq
      have hmem := kid_of_mem ht (mem_children.1 (List.mem_of_find?_eq_some hq))
      have hname := List.find?_some hq
      split at h
      · simp at h
      · rename_i e he
        simp [he] at hname
        split at h
        · simp only [Except.ok.injEq, Option.some.injEq, Prod.mk.injEq] at h
          obtain ⟨rfl, rfl⟩ := h
          exact .stream hmem he hname (by assumption)
        · split at h
          · split at h
            · simp at h
            · exact .storage hmem he hname (by assumption) (ih h)
          · simp at h

theorem dirSearch_complete {low : List Char → List Char} {cd : CompDoc} (ht : cd.HasTree)
    (hn : NamesDiffer low cd.dirlist) {path : List (List Char)} {p c : Nat} {d : DirNode}
    (hp : p = 0 ∨ ∃ q e, (q, p) ∈ cd.kids ∧ cd.dirlist[p]? = some e ∧ e.etype = 1)
    (h : StreamAt low cd.dirlist path p c d) : cd.dirSearch low path p = .ok (some (c, d)) := by
  have key : ∀ {p x : Nat}, (p = 0 ∨ ∃ q e, (q, p) ∈ cd.kids ∧ cd.dirlist[p]? = some e ∧ e.etype = 1) →
      Kid cd.dirlist p x → (p, x) ∈ cd.kids := by
    intro p x hp hx
    obtain ⟨depth, root, h0, h1⟩ := ht
    rcases hp with rfl | ⟨q, e, hm, he, het⟩
    · obtain ⟨r, hr, hx⟩ := hx
      rw [h0] at hr
      cases hr
      exact familyTree_all h1 hx
    · exact familyTree_storage h1 hm he het hx
  have find : ∀ {p x : Nat} {name : List Char} {e : DirNode},
      (p = 0 ∨ ∃ q e, (q, p) ∈ cd.kids ∧ cd.dirlist[p]? = some e ∧ e.etype = 1) →
      Kid cd.dirlist p x → cd.dirlist[x]? = some e → low e.name = low name →
      (cd.children p).find? (fun c => (cd.dirlist[c]?.map fun d => low d.name) = some (low name)) = some x := by
    intro p x name e hp hx he hname
    have hmem : x ∈ cd.children p := mem_children.2 (key hp hx)
    cases hf : (cd.children p).find? (fun c => (cd.dirlist[c]?.map fun d => low d.name) = some (low name)) with
    | none =>
      have := List.find?_eq_none.1 hf x hmem
      simp [he, hname] at this
    | some y =>
      have hy := List.find?_some hf
      have hym := kid_of_mem ht (mem_children.1 (List.mem_of_find?_eq_some hf))
      cases hye : cd.dirlist[y]? with
      | none => simp [hye] at hy
      | some e' =>
        simp [hye] at hy
        rw [hn p y x e' e hym hx hye he (by rw [hy, hname])]
  induction h with
  | @stream name more p c d hk hd hname het =>
    rw [CompDoc.dirSearch, find hp hk hd hname]
    simp [hd, het]
  | @storage name more p q c d e hk he hname het hrest ih =>
    rw [CompDoc.dirSearch, find hp hk he hname]
    simp only [he, het]
    have : more ≠ [] := by
      rintro rfl
      cases hrest
    cases more with
    | nil => exact absurd rfl this
    | cons m ms =>
      simp
      exact ih (.inr ⟨p, e, key hp hk, he, het⟩)

/-- A search with another outcome than a stream finds no stream there. -/
theorem dirSearch_none {low : List Char → List Char} {cd : CompDoc} (ht : cd.HasTree) (hn : NamesDiffer low cd.dirlist)
    {path : List (List Char)} : (∃ c d, cd.dirSearch low path 0 = .ok (some (c, d))) ↔ ∃ c d, StreamAt low cd.dirlist path 0 c d :=
  ⟨fun ⟨c, d, h⟩ => ⟨c, d, dirSearch_sound ht h⟩, fun ⟨c, d, h⟩ => ⟨c, d, dirSearch_complete ht hn (.inl rfl) h⟩⟩

/-! ### the whole document -/

theorem finish_ok {utf16 : Bytes → Except Exc (List Char)} {depth fuel : Nat} {cd cd' : CompDoc} {a b c : Int}
    (h : CompDoc.finish utf16 depth fuel cd a b c = some (.ok cd')) :
    ∃ seen1 ds root others kids seen2 sscs seen3 ssat,
      streamLoop cd.mem 512 cd.sat cd.secSize (some 3) fuel cd.seen a none = some (seen1, .ok ds) ∧
      dirNodes utf16 ds.flatten.length ds.flatten = .ok (root :: others) ∧
      familyTree (root :: others) depth 0 root.root = .ok kids ∧ root.etype = 5 ∧
      ((root.first < 0 ∨ root.size = 0) ∧ seen2 = seen1 ∧ sscs = none ∨
        ¬ (root.first < 0 ∨ root.size = 0) ∧ ∃ ss, streamLoop cd.mem 512 cd.sat cd.secSize (some 4) fuel seen1 root.first
          (some root.size) = some (seen2, .ok ss) ∧ sscs = some ss.flatten) ∧
      (root.size > 0 ∧ 0 ≤ c ∧ ssatLoop cd.mem cd.secSize cd.sat c.toNat seen2 b = .ok (seen3, ssat) ∨
        ¬ root.size > 0 ∧ seen3 = seen2 ∧ ssat = []) ∧
      cd' = { cd with dirlist := root :: others, kids := kids, sscs := sscs, ssat := ssat, seen := seen3 } := by
  unfold CompDoc.finish at h
  dsimp only at h
  split at h
  · simp at h
  · simp at h
  · rename_i seen1 ds h1
    split at h
    · simp at h
    · simp at h
    · rename_i root others h2
      split at h
      · simp at h
      · rename_i kids h3
        split at h
        · simp at h
        · rename_i h4
          split at h
          · simp at h
          · simp at h
          · rename_i seen2 sscs h5
            split at h
            · simp at h
            · rename_i seen3 ssat h6
              simp only [Option.some.injEq, Except.ok.injEq] at h
              refine ⟨seen1, ds, root, others, kids, seen2, sscs, seen3, ssat, h1, h2, h3, by omega, ?_, ?_, h.symm⟩
              · split at h5
                · left
                  simp only [Option.some.injEq, Prod.mk.injEq, Except.ok.injEq] at h5
                  exact ⟨by assumption, h5.1.symm, h5.2.symm⟩
                · right
                  refine ⟨by assumption, ?_⟩
                  split at h5
                  · simp at h5
                  · simp at h5
                  · rename_i s ss hs
                    simp only [Option.some.injEq, Prod.mk.injEq, Except.ok.injEq] at h5
                    obtain ⟨rfl, rfl⟩ := h5
                    exact ⟨ss, hs, rfl⟩
              · split at h6
                · split at h6
                  · simp at h6
                  · exact .inl ⟨by assumption, by omega, h6⟩
                · simp only [Except.ok.injEq, Prod.mk.injEq] at h6
                  exact .inr ⟨by assumption, h6.1.symm, h6.2.symm⟩

theorem finish_ends {utf16 : Bytes → Except Exc (List Char)} {depth fuel : Nat} {cd : CompDoc} {a b c : Int}
    (hf : cd.seen.count 0 < fuel) : ∃ r, CompDoc.finish utf16 depth fuel cd a b c = some r := by
  unfold CompDoc.finish
  dsimp only
  obtain ⟨⟨seen1, r1⟩, h1⟩ := streamLoop_ends (mem := cd.mem) (base := 512) (sat := cd.sat) (secSize := cd.secSize)
    (i := 3) (by decide) hf a none
  rw [h1]
  cases r1 with
  | error e => exact ⟨_, rfl⟩
  | ok ds =>
    have hm := streamLoop_moreSeen (by decide) h1
    dsimp only
    split
    · exact ⟨_, rfl⟩
    · exact ⟨_, rfl⟩
    · rename_i root others _
      split
      · exact ⟨_, rfl⟩
      · split
        · exact ⟨_, rfl⟩
        · obtain ⟨⟨seen2, r2⟩, h2⟩ := streamLoop_ends (mem := cd.mem) (base := 512) (sat := cd.sat) (secSize := cd.secSize)
            (i := 4) (by decide) (show seen1.count 0 < fuel from Nat.lt_of_le_of_lt hm.2 hf) root.first (some root.size)
          rw [h2]
          by_cases hc : root.first < 0 ∨ root.size = 0
          · rw [if_pos hc]
            dsimp only
            split <;> exact ⟨_, rfl⟩
          · rw [if_neg hc]
            cases r2 with
            | error e => exact ⟨_, rfl⟩
            | ok ss =>
              dsimp only
              split <;> exact ⟨_, rfl⟩

end CP
