import Verif.Model.Preparse
import Verif.Spec.Preparse
import Verif.Lemmas.Text
/-!
# The numbers found by `findall` are those of the spec
-/

namespace CP

open Spec

/-! ### first matches -/

theorem runStar_head (p : Char → Bool) (s : List Char) : (runStar p s).head? = some (s.dropWhile p) := by
  induction s with
  | nil => rfl
  | cons c cs ih =>
    unfold runStar
    by_cases h : p c = true
    · rw [if_pos h, List.head?_append, ih, List.dropWhile_cons_of_pos h]; rfl
    · rw [if_neg h, List.dropWhile_cons_of_neg h]; rfl

theorem first_cls (p : Char → Bool) (c : Char) (cs : List Char) :
    (Rx.cls p).first (c :: cs) = if p c then some ([], cs) else none := by
  unfold Rx.first Rx.run
  dsimp only
  split <;> rfl

theorem first_alt (a b : Rx) (s : List Char) : (Rx.alt a b).first s = (a.first s).or (b.first s) := by
  unfold Rx.first; rw [Rx.run, List.head?_append]

theorem first_opt (a : Rx) (s : List Char) : (Rx.opt a).first s = some ((a.first s).getD ([], s)) := by
  unfold Rx.opt
  rw [first_alt]
  cases a.first s <;> rfl

theorem first_star (p : Char → Bool) (s : List Char) : (Rx.star p).first s = some ([], s.dropWhile p) := by
  unfold Rx.first
  rw [Rx.run, List.head?_map, runStar_head]; rfl

/-- If the first match of `a` can be continued, it is. -/
theorem first_seq {a b : Rx} {s t u : List Char} {g g' : List (List Char)} (ha : a.first s = some (g, t))
    (hb : b.first t = some (g', u)) : (Rx.seq a b).first s = some (g ++ g', u) := by
  unfold Rx.first at *
  rw [Rx.run]
  cases hr : a.run s with
  | nil => rw [hr] at ha; simp at ha
  | cons r rs =>
    rw [hr, List.head?_cons, Option.some.injEq] at ha
    subst ha
    rw [List.flatMap_cons, List.head?_append, List.head?_map, hb]
    rfl

theorem run_seq_nil {a b : Rx} {s : List Char} (ha : a.run s = []) : (Rx.seq a b).run s = [] := by
  rw [Rx.run, ha]; rfl

theorem run_nil_iff {a : Rx} {s : List Char} : a.run s = [] ↔ a.first s = none := by
  unfold Rx.first; rw [List.head?_eq_none_iff]

theorem first_seq_none {a b : Rx} {s : List Char} (ha : a.first s = none) : (Rx.seq a b).first s = none := by
  rw [← run_nil_iff] at ha ⊢; exact run_seq_nil ha

theorem first_cls_seq (p : Char → Bool) (b : Rx) (s : List Char) :
    (Rx.seq (.cls p) b).first s = match s with
      | [] => none
      | c :: cs => if p c then b.first cs else none := by
  unfold Rx.first
  rw [Rx.run]
  cases s with
  | nil => rfl
  | cons c cs =>
    rw [Rx.run]
    dsimp only
    split
    · simp [List.flatMap_cons]
    · rfl

theorem first_plus (p : Char → Bool) (s : List Char) :
    (Rx.plus p).first s = match s with
      | [] => none
      | c :: cs => if p c then some ([], cs.dropWhile p) else none := by
  unfold Rx.plus
  rw [first_cls_seq]
  cases s with
  | nil => rfl
  | cons c cs => dsimp only; rw [first_star]

/-- The string without a first character of the class. -/
def dropOpt (p : Char → Bool) (s : List Char) : List Char :=
  match s with
  | [] => []
  | c :: cs => if p c then cs else c :: cs

/-- `c?` before something that can not begin with `c`. -/
theorem first_optcls_seq (p : Char → Bool) (b : Rx) (s : List Char)
    (hb : ∀ c cs, s = c :: cs → p c = true → b.first s = none) :
    (Rx.seq (.opt (.cls p)) b).first s = b.first (dropOpt p s) := by
  unfold Rx.first Rx.opt
  cases s with
  | nil => simp [Rx.run, dropOpt]
  | cons c cs =>
    by_cases hc : p c = true
    · have h0 := run_nil_iff.2 (hb c cs rfl hc)
      simp [Rx.run, dropOpt, hc, h0]
    · simp [Rx.run, dropOpt, hc]

/-! ### the number at the start of a string -/

/-- What is left after an exponent, if there is one. -/
def expRest (dig : Char → Bool) (s : List Char) : Option (List Char) :=
  match s with
  | [] => none
  | e :: t =>
    if isExp e then
      match dropOpt isSign t with
      | [] => none
      | c :: cs => if dig c then some (cs.dropWhile dig) else none
    else none

/-- What is left after a mantissa. -/
def manRest (dig : Char → Bool) (point : Char) (s : List Char) : Option (List Char) :=
  match s with
  | [] => none
  | c :: cs =>
    if dig c then
      let r := cs.dropWhile dig
      match r with
      | [] => some []
      | p :: t => if p = point then some (t.dropWhile dig) else some r
    else if c = point then
      match cs with
      | [] => none
      | d :: ds => if dig d then some (ds.dropWhile dig) else none
    else none

/-- What is left after a number. -/
def numRest (dig : Char → Bool) (point : Char) (s : List Char) : Option (List Char) :=
  match manRest dig point (dropOpt isSign s) with
  | none => none
  | some r => some ((expRest dig r).getD r)

theorem first_exp {dig : Char → Bool} (hd : DigitClass dig) (s : List Char) :
    (Rx.seq (.cls isExp) (.seq (.opt (.cls isSign)) (.plus dig))).first s =
      (expRest dig s).map fun r => ([], r) := by
  rw [first_cls_seq]
  unfold expRest
  cases s with
  | nil => rfl
  | cons e t =>
    dsimp only
    by_cases he : isExp e = true
    · rw [if_pos he, if_pos he, first_optcls_seq]
      · rw [first_plus]
        cases dropOpt isSign t with
        | nil => rfl
        | cons x xs => dsimp only; split <;> rfl
      · intro c cs ht hc
        subst ht
        rw [first_plus]
        have : dig c = false := hd.1 c (by unfold isSign at hc; simp at hc ⊢; grind)
        simp [this]
    · rw [if_neg he, if_neg he]; rfl

theorem first_man {dig : Char → Bool} {point : Char} (s : List Char) :
    (Rx.alt (.seq (.plus dig) (.opt (.seq (.cls (· = point)) (.star dig))))
        (.seq (.cls (· = point)) (.plus dig))).first s =
      (manRest dig point s).map fun r => ([], r) := by
  rw [first_alt]
  unfold manRest
  cases s with
  | nil =>
    rw [first_seq_none (by rw [first_plus]), first_cls_seq]
    rfl
  | cons c cs =>
    dsimp only
    by_cases hc : dig c = true
    · have h1 : (Rx.plus dig).first (c :: cs) = some ([], cs.dropWhile dig) := by
        rw [first_plus]; simp [hc]
      have h2 := first_opt (.seq (.cls (· = point)) (.star dig)) (cs.dropWhile dig)
      rw [first_cls_seq] at h2
      have h3 := first_seq (a := .plus dig) (b := .opt (.seq (.cls (· = point)) (.star dig))) h1
        (g' := ((match cs.dropWhile dig with
          | [] => none
          | c :: cs => if decide (c = point) = true then (Rx.star dig).first cs else none).getD
            ([], cs.dropWhile dig)).1)
        (u := ((match cs.dropWhile dig with
          | [] => none
          | c :: cs => if decide (c = point) = true then (Rx.star dig).first cs else none).getD
            ([], cs.dropWhile dig)).2) (by rw [h2])
      rw [h3, if_pos hc]
      cases hr : cs.dropWhile dig with
      | nil => rfl
      | cons p t =>
        dsimp only
        by_cases hpt : p = point
        · simp [hpt, first_star]
        · simp [hpt]
    · have h1 : (Rx.plus dig).first (c :: cs) = none := by rw [first_plus]; simp [hc]
      rw [first_seq_none h1, first_cls_seq, if_neg hc, Option.none_or]
      dsimp only
      by_cases hcp : c = point
      · rw [if_pos hcp, if_pos (by simpa using hcp), first_plus]
        cases cs with
        | nil => rfl
        | cons d ds => dsimp only; split <;> rfl
      · rw [if_neg hcp, if_neg (by simpa using hcp)]; rfl

/-- The pattern finds what `numRest` finds. -/
theorem first_num {dig : Char → Bool} {point : Char} (hd : DigitClass dig)
    (hp : point = '.' ∨ point = ',') (s : List Char) :
    (numRx dig point).first s = (numRest dig point s).map fun r => ([], r) := by
  have key : ∀ t, (Rx.seq
      (.alt (.seq (.plus dig) (.opt (.seq (.cls (· = point)) (.star dig))))
        (.seq (.cls (· = point)) (.plus dig)))
      (.opt (.seq (.cls isExp) (.seq (.opt (.cls isSign)) (.plus dig))))).first t =
      match manRest dig point t with
      | none => none
      | some r => some ([], (expRest dig r).getD r) := by
    intro t
    have h1 := first_man (dig := dig) (point := point) t
    cases hm : manRest dig point t with
    | none =>
      rw [hm] at h1
      rw [first_seq_none h1]
    | some r =>
      rw [hm] at h1
      have h2 := first_opt (.seq (.cls isExp) (.seq (.opt (.cls isSign)) (.plus dig))) r
      rw [first_exp hd] at h2
      have h3 := first_seq (g := []) (t := r) h1 (g' := []) (u := (expRest dig r).getD r) (by
        rw [h2]; cases expRest dig r <;> rfl)
      rw [h3]; rfl
  unfold numRx
  rw [first_optcls_seq]
  · rw [key]
    unfold numRest
    cases manRest dig point (dropOpt isSign s) <;> rfl
  · intro c cs hs hc
    subst hs
    rw [key]
    have : manRest dig point (c :: cs) = none := by
      unfold manRest
      have h1 : dig c = false := hd.1 c (by unfold isSign at hc; simp at hc ⊢; grind)
      have h2 : c ≠ point := by
        unfold isSign at hc
        rcases hp with rfl | rfl <;> (intro h; subst h; simp at hc)
      simp [h1, h2]
    rw [this]

/-! ### it is the longest number -/

theorem dropWhile_len (p : Char → Bool) (s : List Char) : (s.dropWhile p).length ≤ s.length :=
  (List.dropWhile_sublist p).length_le

theorem dropWhile_append_pre {p : Char → Bool} {a : List Char} (h : ∀ c ∈ a, p c = true) (b : List Char) :
    (a ++ b).dropWhile p = b.dropWhile p := by
  induction a with
  | nil => rfl
  | cons x xs ih =>
    rw [List.cons_append, List.dropWhile_cons_of_pos (h x (by simp))]
    exact ih (fun c hc => h c (by simp [hc]))

theorem expRest_len {dig : Char → Bool} {s r : List Char} (h : expRest dig s = some r) :
    r.length ≤ s.length := by
  unfold expRest at h
  cases s with
  | nil => simp at h
  | cons e t =>
    dsimp only at h
    split at h
    · have h1 : (dropOpt isSign t).length ≤ t.length := by
        unfold dropOpt; cases t with
        | nil => simp
        | cons c cs => dsimp only; split <;> simp
      split at h
      · simp at h
      · rename_i c cs heq
        split at h
        · simp at h
          subst h
          rw [heq] at h1
          have := dropWhile_len dig cs
          simp at h1 ⊢
          omega
        · simp at h
    · simp at h

theorem expRest_exp {dig : Char → Bool} (hd : DigitClass dig) {ex rest : List Char} (h : Exponent dig ex)
    (hne : ex ≠ []) : ∃ r, expRest dig (ex ++ rest) = some r ∧ r.length ≤ rest.length := by
  rcases h with h | ⟨e, sg, ds, he, hsg, ⟨hds, hdd⟩, rfl⟩
  · exact absurd h hne
  · have he' : isExp e = true := by unfold isExp; rcases he with rfl | rfl <;> rfl
    obtain ⟨d, ds', rfl⟩ := List.exists_cons_of_ne_nil hds
    have hdig : dig d = true := hdd d (by simp)
    have hdrop : dropOpt isSign (sg ++ (d :: ds') ++ rest) = d :: (ds' ++ rest) := by
      have hns : isSign d = false := by
        cases hs : isSign d with
        | false => rfl
        | true =>
          have := hd.1 d (by unfold isSign at hs; simp at hs ⊢; grind)
          rw [this] at hdig; simp at hdig
      rcases hsg with rfl | rfl | rfl
      · simp [dropOpt, hns]
      · simp [dropOpt, isSign]
      · simp [dropOpt, isSign]
    refine ⟨(ds' ++ rest).dropWhile dig, ?_, ?_⟩
    · rw [List.cons_append]
      unfold expRest
      dsimp only
      rw [if_pos he', hdrop]
      dsimp only
      rw [if_pos hdig]
    · rw [dropWhile_append_pre (fun c hc => hdd c (by simp [hc]))]
      exact dropWhile_len _ _

theorem manRest_man {dig : Char → Bool} (hd : DigitClass dig) {point : Char} (hp : point = '.' ∨ point = ',')
    {m : List Char} (h : Mantissa dig point m) (rest : List Char) :
    ∃ r, manRest dig point (m ++ rest) = some r ∧ r.length ≤ rest.length ∧
      ((∃ e t, rest = e :: t ∧ (e = 'e' ∨ e = 'E')) → r = rest) := by
  have hpd : dig point = false := hd.1 point (by rcases hp with rfl | rfl <;> simp)
  have hexp : (∃ e t, rest = e :: t ∧ (e = 'e' ∨ e = 'E')) → rest.dropWhile dig = rest := by
    rintro ⟨e, t, rfl, he⟩
    have : dig e = false := hd.1 e (by rcases he with rfl | rfl <;> simp)
    rw [List.dropWhile_cons_of_neg (by simp [this])]
  rcases h with ⟨hm, hmd⟩ | ⟨a, b, ⟨ha, had⟩, hb, rfl⟩ | ⟨b, ⟨hb, hbd⟩, rfl⟩
  · obtain ⟨d, ds, rfl⟩ := List.exists_cons_of_ne_nil hm
    have hdd : dig d = true := hmd d (by simp)
    have hds : (ds ++ rest).dropWhile dig = rest.dropWhile dig :=
      dropWhile_append_pre (fun c hc => hmd c (by simp [hc])) _
    rw [List.cons_append]
    unfold manRest
    dsimp only
    rw [if_pos hdd, hds]
    have hlen := dropWhile_len dig rest
    cases hr : rest.dropWhile dig with
    | nil =>
      refine ⟨[], rfl, by simp, ?_⟩
      intro he; rw [← hexp he, hr]
    | cons p t =>
      rw [hr] at hlen
      dsimp only
      by_cases hpt : p = point
      · rw [if_pos hpt]
        refine ⟨_, rfl, ?_, ?_⟩
        · have := dropWhile_len dig t; simp at hlen; omega
        · intro he
          have h1 := hexp he
          obtain ⟨e, t', he1, he2⟩ := he
          rw [hr, he1] at h1
          simp at h1
          rw [h1.1] at hpt
          rcases hp with rfl | rfl <;> rcases he2 with rfl | rfl <;> simp at hpt
      · rw [if_neg hpt]
        exact ⟨_, rfl, hlen, fun he => by rw [← hr]; exact hexp he⟩
  · obtain ⟨d, ds, rfl⟩ := List.exists_cons_of_ne_nil ha
    have hdd : dig d = true := had d (by simp)
    have e1 : (d :: ds ++ point :: b) ++ rest = d :: (ds ++ point :: (b ++ rest)) := by simp
    rw [e1]
    unfold manRest
    dsimp only
    rw [if_pos hdd, dropWhile_append_pre (fun c hc => had c (by simp [hc])),
      List.dropWhile_cons_of_neg (by simp [hpd])]
    dsimp only
    rw [if_pos rfl, dropWhile_append_pre hb]
    exact ⟨_, rfl, dropWhile_len _ _, hexp⟩
  · obtain ⟨d, ds, rfl⟩ := List.exists_cons_of_ne_nil hb
    have hdd : dig d = true := hbd d (by simp)
    have e1 : (point :: d :: ds) ++ rest = point :: d :: (ds ++ rest) := by simp
    rw [e1]
    unfold manRest
    dsimp only
    rw [if_neg (by simp [hpd]), if_pos rfl, if_pos hdd, dropWhile_append_pre (fun c hc => hbd c (by simp [hc]))]
    exact ⟨_, rfl, dropWhile_len _ _, hexp⟩

/-- No number at the start of the string is longer than the one found. -/
theorem numRest_longest {dig : Char → Bool} (hd : DigitClass dig) {point : Char} (hp : point = '.' ∨ point = ',')
    {n rest : List Char} (hn : IsNumber dig point n) :
    ∃ r, numRest dig point (n ++ rest) = some r ∧ r.length ≤ rest.length := by
  obtain ⟨sg, m, ex, hsg, hm, hex, rfl⟩ := hn
  obtain ⟨r, hr1, hr2, hr3⟩ := manRest_man hd hp hm (ex ++ rest)
  have hdrop : dropOpt isSign (sg ++ m ++ ex ++ rest) = m ++ (ex ++ rest) := by
    obtain ⟨c, cs, hmc, hcs⟩ : ∃ c cs, m = c :: cs ∧ isSign c = false := by
      have hsd : ∀ c, dig c = true → isSign c = false := by
        intro c hc
        cases hs : isSign c with
        | false => rfl
        | true =>
          have := hd.1 c (by unfold isSign at hs; simp at hs ⊢; grind)
          rw [this] at hc; simp at hc
      have hsp : isSign point = false := by rcases hp with rfl | rfl <;> rfl
      rcases hm with ⟨hm, hmd⟩ | ⟨a, b, ⟨ha, had⟩, hb, rfl⟩ | ⟨b, ⟨hb, hbd⟩, rfl⟩
      · obtain ⟨d, ds, rfl⟩ := List.exists_cons_of_ne_nil hm
        exact ⟨d, ds, rfl, hsd d (hmd d (by simp))⟩
      · obtain ⟨d, ds, rfl⟩ := List.exists_cons_of_ne_nil ha
        exact ⟨d, _, rfl, hsd d (had d (by simp))⟩
      · exact ⟨point, b, rfl, hsp⟩
    subst hmc
    rcases hsg with rfl | rfl | rfl
    · simp [dropOpt, hcs]
    · simp [dropOpt, isSign]
    · simp [dropOpt, isSign]
  unfold numRest
  rw [hdrop, hr1]
  dsimp only
  by_cases he : ex = []
  · subst he
    refine ⟨_, rfl, ?_⟩
    simp only [List.nil_append] at hr2
    cases h0 : expRest dig r with
    | none => exact hr2
    | some r' => have := expRest_len h0; simp only [Option.getD_some]; omega
  · obtain ⟨r', h1, h2⟩ := expRest_exp hd (rest := rest) hex he
    have : r = ex ++ rest := by
      apply hr3
      rcases hex with h0 | ⟨e, sg', ds, he', _, _, rfl⟩
      · exact absurd h0 he
      · exact ⟨e, sg' ++ ds ++ rest, by simp, he'⟩
    rw [this, h1]
    exact ⟨r', rfl, h2⟩

theorem takeWhile_digits {dig : Char → Bool} (s : List Char) :
    ∃ a, s = a ++ s.dropWhile dig ∧ ∀ c ∈ a, dig c = true :=
  ⟨s.takeWhile dig, List.takeWhile_append_dropWhile.symm, fun c hc => by
    have := List.all_takeWhile (p := dig) (l := s)
    rw [List.all_eq_true] at this
    exact this c hc⟩

theorem expRest_sound {dig : Char → Bool} {s r : List Char} (h : expRest dig s = some r) :
    ∃ ex, s = ex ++ r ∧ Exponent dig ex := by
  unfold expRest at h
  cases s with
  | nil => simp at h
  | cons e t =>
    dsimp only at h
    split at h
    · rename_i he
      have he' : e = 'e' ∨ e = 'E' := by unfold isExp at he; simpa using he
      split at h
      · simp at h
      · rename_i c cs heq
        split at h
        · rename_i hc
          simp only [Option.some.injEq] at h
          subst h
          obtain ⟨a, ha, had⟩ := takeWhile_digits (dig := dig) cs
          obtain ⟨sg, hsg, ht⟩ : ∃ sg, Sign sg ∧ t = sg ++ c :: cs := by
            unfold dropOpt at heq
            cases t with
            | nil => simp at heq
            | cons x xs =>
              dsimp only at heq
              split at heq
              · rename_i hx
                refine ⟨[x], ?_, by simp [heq]⟩
                unfold isSign at hx
                simp at hx
                rcases hx with rfl | rfl <;> simp [Sign]
              · exact ⟨[], .inl rfl, by simpa using heq⟩
          refine ⟨e :: (sg ++ (c :: a)), ?_, .inr ⟨e, sg, c :: a, he', hsg, ⟨by simp, ?_⟩, rfl⟩⟩
          · rw [ht]; simp; exact ha
          · intro x hx
            rcases List.mem_cons.1 hx with rfl | hx
            · exact hc
            · exact had x hx
        · simp at h
    · simp at h

theorem manRest_sound {dig : Char → Bool} {point : Char} {s r : List Char} (h : manRest dig point s = some r) :
    ∃ m, s = m ++ r ∧ Mantissa dig point m := by
  unfold manRest at h
  cases s with
  | nil => simp at h
  | cons c cs =>
    dsimp only at h
    split at h
    · rename_i hc
      obtain ⟨a, ha, had⟩ := takeWhile_digits (dig := dig) cs
      have hca : Digits dig (c :: a) := ⟨by simp, by
        intro x hx
        rcases List.mem_cons.1 hx with rfl | hx
        · exact hc
        · exact had x hx⟩
      split at h
      · rename_i hr
        simp at h; subst h
        rw [hr] at ha
        exact ⟨c :: a, by simp; simpa using ha, .inl hca⟩
      · rename_i p t hr
        rw [hr] at ha
        split at h
        · rename_i hpt
          simp at h
          obtain ⟨b, hb, hbd⟩ := takeWhile_digits (dig := dig) t
          rw [h] at hb
          refine ⟨c :: a ++ point :: b, ?_, .inr (.inl ⟨c :: a, b, hca, hbd, rfl⟩)⟩
          rw [ha, hpt, hb]; simp
        · simp at h
          rw [hr] at h
          refine ⟨c :: a, ?_, .inl hca⟩
          rw [← h]
          conv => lhs; rw [ha]
          rfl
    · split at h
      · rename_i hcp
        split at h
        · simp at h
        · rename_i d ds
          split at h
          · rename_i hdd
            simp at h
            obtain ⟨b, hb, hbd⟩ := takeWhile_digits (dig := dig) ds
            rw [h] at hb
            refine ⟨point :: d :: b, ?_, .inr (.inr ⟨d :: b, ⟨by simp, ?_⟩, rfl⟩)⟩
            · rw [hcp, hb]; simp
            · intro x hx
              rcases List.mem_cons.1 hx with rfl | hx
              · exact hdd
              · exact hbd x hx
          · simp at h
      · simp at h

theorem numRest_sound {dig : Char → Bool} {point : Char} {s r : List Char} (h : numRest dig point s = some r) :
    ∃ n, s = n ++ r ∧ IsNumber dig point n := by
  unfold numRest at h
  split at h
  · simp at h
  · rename_i t ht
    simp only [Option.some.injEq] at h
    obtain ⟨m, hm1, hm2⟩ := manRest_sound ht
    obtain ⟨sg, hsg, hs⟩ : ∃ sg, Sign sg ∧ s = sg ++ dropOpt isSign s := by
      cases s with
      | nil => exact ⟨[], .inl rfl, rfl⟩
      | cons x xs =>
        unfold dropOpt
        dsimp only
        split
        · rename_i hx
          refine ⟨[x], ?_, rfl⟩
          unfold isSign at hx
          simp at hx
          rcases hx with rfl | rfl <;> simp [Sign]
        · exact ⟨[], .inl rfl, rfl⟩
    cases he : expRest dig t with
    | none =>
      rw [he] at h
      simp at h
      subst h
      exact ⟨sg ++ m ++ [], by rw [hs, hm1]; simp, sg, m, [], hsg, hm2, .inl rfl, rfl⟩
    | some r' =>
      rw [he] at h
      simp at h
      subst h
      obtain ⟨ex, hex1, hex2⟩ := expRest_sound he
      exact ⟨sg ++ m ++ ex, by rw [hs, hm1, hex1]; simp, sg, m, ex, hsg, hm2, hex2, rfl⟩

/-- The number found is the longest. -/
theorem numRest_spec {dig : Char → Bool} (hd : DigitClass dig) {point : Char} (hp : point = '.' ∨ point = ',')
    (s : List Char) :
    (∀ r, numRest dig point s = some r → ∃ n, s = n ++ r ∧ IsNumber dig point n ∧
      ∀ n' rest, s = n' ++ rest → IsNumber dig point n' → n'.length ≤ n.length) ∧
    (numRest dig point s = none → ∀ n rest, s = n ++ rest → ¬ IsNumber dig point n) := by
  constructor
  · intro r hr
    obtain ⟨n, hn1, hn2⟩ := numRest_sound hr
    refine ⟨n, hn1, hn2, ?_⟩
    intro n' rest hs hn'
    obtain ⟨r', h1, h2⟩ := numRest_longest hd hp (rest := rest) hn'
    rw [← hs, hr, Option.some.injEq] at h1
    subst h1
    have := congrArg List.length hs
    have := congrArg List.length hn1
    simp at *
    omega
  · intro hnone n rest hs hn
    obtain ⟨r, h1, _⟩ := numRest_longest hd hp (rest := rest) hn
    rw [← hs, hnone] at h1
    simp at h1

theorem isNumber_ne_nil {dig : Char → Bool} {point : Char} {n : List Char} (h : IsNumber dig point n) : n ≠ [] := by
  obtain ⟨sg, m, ex, _, hm, _, rfl⟩ := h
  rcases hm with ⟨hm, _⟩ | ⟨a, b, _, _, rfl⟩ | ⟨b, _, rfl⟩
  · simp [hm]
  · simp
  · simp

/-- A number has a digit. -/
theorem isNumber_digit {dig : Char → Bool} {point : Char} {n : List Char} (h : IsNumber dig point n) :
    ∃ c ∈ n, dig c = true := by
  obtain ⟨sg, m, ex, _, hm, _, rfl⟩ := h
  rcases hm with ⟨hm, hmd⟩ | ⟨a, b, ⟨ha, had⟩, _, rfl⟩ | ⟨b, ⟨hb, hbd⟩, rfl⟩
  · obtain ⟨d, ds, rfl⟩ := List.exists_cons_of_ne_nil hm
    exact ⟨d, by simp, hmd d (by simp)⟩
  · obtain ⟨d, ds, rfl⟩ := List.exists_cons_of_ne_nil ha
    exact ⟨d, by simp, had d (by simp)⟩
  · obtain ⟨d, ds, rfl⟩ := List.exists_cons_of_ne_nil hb
    exact ⟨d, by simp, hbd d (by simp)⟩

/-! ### findall -/

theorem scan_tokens {dig : Char → Bool} (hd : DigitClass dig) {point : Char} (hp : point = '.' ∨ point = ',')
    (k : Nat) (before s : List Char) (hk : s.length < k) :
    Tokens dig point s (((numRx dig point).scan k before s).1.map Prod.snd) := by
  induction k generalizing before s with
  | zero => omega
  | succ k ih =>
    unfold Rx.scan
    rw [first_num hd hp]
    obtain ⟨h1, h2⟩ := numRest_spec hd hp s
    cases hn : numRest dig point s with
    | none =>
      dsimp only [Option.map_none]
      cases s with
      | nil => exact .nil
      | cons c cs =>
        dsimp only
        exact .other (h2 hn) (ih _ cs (by simp at hk; omega))
    | some r =>
      obtain ⟨n, hs, hnum, hlong⟩ := h1 r hn
      have hne := isNumber_ne_nil hnum
      have hlen : r.length < s.length := by
        have := congrArg List.length hs
        have h0 : 0 < n.length := List.length_pos_iff.2 hne
        rw [List.length_append] at this; omega
      dsimp only [Option.map_some]
      rw [if_pos hlen]
      have htake : s.take (s.length - r.length) = n := by
        rw [hs]; simp
      dsimp only [List.map_cons]
      rw [htake]
      subst hs
      exact .num hnum hlong (ih _ r (by omega))

theorem findall_tokens {dig : Char → Bool} (hd : DigitClass dig) {point : Char} (hp : point = '.' ∨ point = ',')
    (s : List Char) : Tokens dig point s ((numRx dig point).findall s) :=
  scan_tokens hd hp _ _ _ (by omega)

theorem tokens_unique {dig : Char → Bool} {point : Char} {s : List Char} {ts us : List (List Char)}
    (h : Tokens dig point s ts) (h' : Tokens dig point s us) : ts = us := by
  induction h generalizing us with
  | nil =>
    generalize hs : ([] : List Char) = s at h'
    cases h' with
    | nil => rfl
    | other => simp at hs
    | num hn _ _ =>
      have := isNumber_ne_nil hn
      simp at hs
      exact absurd hs.1 this
  | @other c s ts hno _ ih =>
    generalize hs : c :: s = s' at h'
    cases h' with
    | nil => simp at hs
    | other _ h'' => simp at hs; obtain ⟨rfl, rfl⟩ := hs; exact ih h''
    | num hn _ _ => exact absurd hn (hno _ _ hs)
  | @num n s ts hn hlong _ ih =>
    generalize hs : n ++ s = s' at h'
    cases h' with
    | nil =>
      have := isNumber_ne_nil hn
      simp at hs
      exact absurd hs.1 this
    | other hno _ => exact absurd hn (hno _ _ hs.symm)
    | @num n' s'' ts' hn' hlong' h'' =>
      have h1 := hlong n' s'' hs hn'
      have h2 := hlong' n s hs.symm hn
      have hl : n.length = n'.length := by omega
      obtain ⟨rfl, rfl⟩ := List.append_inj hs hl
      rw [ih h'']

/-- `findall` finds the numbers of the line. -/
theorem tokens_iff {dig : Char → Bool} (hd : DigitClass dig) {point : Char} (hp : point = '.' ∨ point = ',')
    {s : List Char} {ts : List (List Char)} :
    Tokens dig point s ts ↔ ts = (numRx dig point).findall s :=
  ⟨fun h => tokens_unique h (findall_tokens hd hp s), fun h => h ▸ findall_tokens hd hp s⟩

end CP
