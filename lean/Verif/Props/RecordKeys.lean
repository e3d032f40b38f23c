import Verif.Spec.RecordKeys
import Verif.Props.TextNames
import Verif.Props.Pack
/-!
# C100: the records hold the channels of their keys
-/

namespace CP
open Spec

/-- The field of a key: its name, or with `fallback` the prefix and the key. -/
def Pack.field (p : Pack) (fallback : Bool) (k : Int) (s : List Char) : Prop :=
  if fallback then s = p.pre ++ decInt k else (k, Val.str s) ∈ p.names

/-- The keys of the records: those of the names, or with `fallback` those of the data. -/
def Pack.isField (p : Pack) (fallback : Bool) (k : Int) : Prop :=
  k ∈ if fallback then dkeys p.data else dkeys p.names

/-- The values of a channel by its key. -/
def Pack.holds (p : Pack) (part : Option Int) (nof : Option String) (k : Int) (vals : List Val) : Prop :=
  ∃ a, p.call (.int k) part nof = .ok a ∧ vals = a.els

theorem call_key {p : Pack} {s : List Char} {k : Int} (h : p.datakey (.str s) = .ok k) (part : Option Int)
    (nof : Option String) : p.call (.str s) part nof = p.call (.int k) part nof := by
  have hk := (C15_lookup_order p).2.2.2.2 _ _ h
  have hdk : p.datakey (.int k) = .ok k := by rw [(C15_lookup_order p).1, if_pos hk]
  simp only [Pack.call, h, hdk]

theorem call_ok_key {p : Pack} {ch : Ch} {part : Option Int} {nof : Option String} {a : Arr}
    (h : p.call ch part nof = .ok a) : ∃ k, p.datakey ch = .ok k := by
  unfold Pack.call at h
  split at h
  · simp at h
  · exact ⟨_, by assumption⟩

theorem sortInts_lt {l : List Int} (h : l.Nodup) : (sortInts l).Pairwise (· < ·) := by
  have h1 := sortInts_sorted l
  have h2 : (sortInts l).Nodup := (sortInts_perm l).nodup_iff.2 h
  exact List.Pairwise.imp₂ (fun a b hab hne => by omega) h1 h2

/-- The fields of the records, when there are any. -/
theorem recordNames_fields {p : Pack} {fallback : Bool} {ns : List (List Char)} (hd : (dkeys p.data).Nodup)
    (hn : (dkeys p.names).Nodup) (h : p.recordNames fallback = some ns) :
    ∃ keys, RecordFields (p.isField fallback) (p.field fallback) keys ns := by
  unfold Pack.recordNames at h
  cases fallback with
  | true =>
    simp only [if_true, Option.some.injEq] at h
    subst h
    refine ⟨sortInts (dkeys p.data), sortInts_lt hd, fun k => mem_sortInts, by simp, ?_⟩
    intro j k s hk hs
    rw [List.getElem?_map, hk] at hs
    simpa [Pack.field] using hs.symm
  | false =>
    simp only [Bool.false_eq_true, if_false] at h
    have h1 := strNames_some h
    have h2 : ∀ l : List Int, (∀ k ∈ l, k ∈ dkeys p.names) →
        l.map (fun k => dget p.names k) = (l.filterMap (dget p.names)).map some := by
      intro l hl
      induction l with
      | nil => simp
      | cons x xs ih =>
        obtain ⟨v, hv⟩ := Option.isSome_iff_exists.1 (dget_isSome.2 (hl x (by simp)))
        simp only [List.map_cons, hv, List.filterMap_cons]
        rw [ih (fun k hk => hl k (by simp [hk]))]
    have h3 := h2 (sortInts (dkeys p.names)) fun k hk => mem_sortInts.1 hk
    rw [h1] at h3
    refine ⟨sortInts (dkeys p.names), sortInts_lt hn, fun k => mem_sortInts, ?_, ?_⟩
    · simpa using (congrArg List.length h3).symm
    · intro j k s hk hs
      have h4 := congrArg (·[j]?) h3
      simp only [List.getElem?_map, hk, hs, Option.map_some, Option.some.injEq] at h4
      show (k, Val.str s) ∈ p.names
      exact dget_mem h4

theorem fields_exist {isKey : Int → Prop} {field : Int → List Char → Prop} {keys : List Int}
    {ns : List (List Char)} (h : RecordFields isKey field keys ns) {j : Nat} {k : Int} (hk : keys[j]? = some k) :
    ∃ s, ns[j]? = some s ∧ field k s := by
  have hj : j < ns.length := by rw [h.2.2.1]; exact (List.getElem?_eq_some_iff.1 hk).1
  exact ⟨ns[j], List.getElem?_eq_getElem hj, h.2.2.2 j k _ hk (List.getElem?_eq_getElem hj)⟩

/-- C100: in general, the column of a key holds the channel that its field leads to by the lookup of
names. -/
theorem C100_lookup (ident : List Char → Bool) (p : Pack) (hd : (dkeys p.data).Nodup) (hn : (dkeys p.names).Nodup)
    (part : Option Int) (nof : Option String) (fallback : Bool) (ns : List (List Char)) (rows : List (List Val))
    (h : p.records ident part nof fallback = .ok (ns, rows)) :
    ∃ keys dests, RecordFields (p.isField fallback) (p.field fallback) keys ns ∧ dests.length = keys.length ∧
      (∀ (j : Nat) s k, ns[j]? = some s → dests[j]? = some k → ResolvesStr p.pre (· ∈ dkeys p.data) p.names s k) ∧
      RowsOf (p.holds part nof) dests rows := by
  unfold Pack.records at h
  split at h
  · simp at h
  rename_i ns' hns
  by_cases hv : validFields ident ns' = true
  case neg => rw [if_neg hv] at h; simp at h
  rw [if_pos hv] at h
  split at h
  · simp at h
  rename_i cols hcols
  simp only [Except.ok.injEq, Prod.mk.injEq] at h
  obtain ⟨rfl, rfl⟩ := h
  obtain ⟨c1, c2⟩ := callAll_spec hcols
  obtain ⟨keys, hf⟩ := recordNames_fields hd hn hns
  let dest : List Char → Int := fun s => match p.datakey (.str s) with
    | .ok k => k
    | .error _ => 0
  have hdest : ∀ (j : Nat) s, ns'[j]? = some s → p.datakey (.str s) = .ok (dest s) ∧
      ∃ a, p.call (.int (dest s)) part nof = .ok a ∧ cols[j]? = some a.els := by
    intro j s hs
    obtain ⟨a, h1, h2⟩ := c2 j s hs
    obtain ⟨k, hk⟩ := call_ok_key h1
    have : dest s = k := by show (match p.datakey (.str s) with | .ok k => k | .error _ => 0) = k; rw [hk]
    rw [this]
    exact ⟨hk, a, by rw [← call_key hk]; exact h1, h2⟩
  have hget : ∀ (j : Nat) k, (ns'.map dest)[j]? = some k → ∃ s, ns'[j]? = some s ∧ k = dest s := by
    intro j k hk
    rw [List.getElem?_map] at hk
    cases hs : ns'[j]? with
    | none => rw [hs] at hk; simp at hk
    | some s => rw [hs] at hk; exact ⟨s, rfl, by simpa using hk.symm⟩
  refine ⟨keys, ns'.map dest, hf, by simp [hf.2.2.1], ?_, ?_⟩
  · intro j s k hs hk
    obtain ⟨s', hs', rfl⟩ := hget j k hk
    rw [hs] at hs'
    cases hs'
    exact ((C15_lookup_order p).2.1 s _).1 (hdest j s hs).1
  · have hne : ∀ {k : Int}, k ∈ ns'.map dest → cols ≠ [] := by
      intro k hk he
      rw [he] at c1
      have : ns' = [] := List.length_eq_zero_iff.1 c1.symm
      rw [this] at hk; simp at hk
    refine ⟨?_, ?_, ?_, ?_⟩
    · intro i row hrow
      have hcne : cols ≠ [] := by rintro rfl; simp [zipCols] at hrow
      obtain ⟨z1, z2⟩ := (zipCols_spec cols hcne).2.2 i row hrow
      refine ⟨by rw [z1, c1]; simp, ?_⟩
      intro j k hk
      obtain ⟨s, hs, rfl⟩ := hget j k hk
      obtain ⟨-, a, h1, h2⟩ := hdest j s hs
      exact ⟨a.els, ⟨a, h1, rfl⟩, z2 j a.els h2⟩
    · intro k hk
      have hcne := hne hk
      obtain ⟨j, hj⟩ := List.mem_iff_getElem?.1 hk
      obtain ⟨s, hs, rfl⟩ := hget j k hj
      obtain ⟨-, a, h1, h2⟩ := hdest j s hs
      exact ⟨a.els, ⟨a, h1, rfl⟩, (zipCols_spec cols hcne).1 _ (List.mem_of_getElem? h2)⟩
    · intro hk
      have hcne : cols ≠ [] := by
        rintro rfl
        have : ns' = [] := List.length_eq_zero_iff.1 c1.symm
        rw [this] at hk; simp at hk
      obtain ⟨_, ⟨m, hm, hm'⟩, _⟩ := zipCols_spec cols hcne
      obtain ⟨j, hj⟩ := List.mem_iff_getElem?.1 hm
      have hjl : j < ns'.length := by rw [← c1]; exact (List.getElem?_eq_some_iff.1 hj).1
      obtain ⟨-, a, h1, h2⟩ := hdest j ns'[j] (List.getElem?_eq_getElem hjl)
      rw [hj] at h2
      simp only [Option.some.injEq] at h2
      exact ⟨dest ns'[j], List.mem_map_of_mem (List.getElem_mem _), a.els, ⟨a, h1, rfl⟩, by rw [hm', h2]⟩
    · intro hk
      have : ns' = [] := by simpa using hk
      rw [this] at c1
      have : cols = [] := List.length_eq_zero_iff.1 c1
      rw [this]; simp [zipCols]

/-- No channel has the fallback name of another one for its name. -/
def NoForeign (p : Pack) : Prop :=
  ∀ k k', (k, Val.str (p.pre ++ decInt k')) ∈ p.names → k' ∈ dkeys p.data → k = k'

/-- C100 in full: the column of a key in the records holds the channel of that key.  `all` is for all
packs, without it only with the names of the pack, or with fallback names no other channel has. -/
def RecordsByKey (all : Bool) : Prop :=
  ∀ (ident : List Char → Bool) (p : Pack) (part : Option Int) (nof : Option String) (fallback : Bool)
    (ns : List (List Char)) (rows : List (List Val)), (dkeys p.data).Nodup → (dkeys p.names).Nodup →
    (all = false → fallback = true → NoForeign p) →
    p.records ident part nof fallback = .ok (ns, rows) →
    ∃ keys, RecordFields (p.isField fallback) (p.field fallback) keys ns ∧ RowsOf (p.holds part nof) keys rows

theorem firstNamed_mem {names : List (Int × Val)} {s : List Char} {k : Int} (h : FirstNamed names s k) :
    (k, Val.str s) ∈ names := by
  obtain ⟨l1, l2, rfl, -⟩ := h
  simp

theorem decInt_nat (n : Nat) : decInt (n : Int) = decNat n := by
  have : ¬ ((n : Int) < 0) := by omega
  simp [decInt, this]

theorem isFallback_dec (pre : List Char) (n : Nat) : IsFallback pre (pre ++ decNat n) n := by
  refine ⟨decNat n, [], by simp, decNat_ne_nil _, decNat_digits _, by simp, ?_⟩
  rw [← parseNat_eq (decNat_digits _), parseNat_decNat]

/-- A fallback string of a negative key is none. -/
theorem not_fallback_neg (pre : List Char) (k : Int) (hk : k < 0) (n : Nat) : ¬ IsFallback pre (pre ++ decInt k) n := by
  rintro ⟨ds, rest, h1, h2, h3, -⟩
  have h4 : decInt k = ds ++ rest := by
    rw [List.append_assoc] at h1
    exact List.append_cancel_left h1
  have h5 : ∃ t, decInt k = '-' :: t := ⟨decNat k.natAbs, by simp [decInt, hk]⟩
  obtain ⟨t, h5⟩ := h5
  cases ds with
  | nil => exact h2 rfl
  | cons c ds =>
    rw [h5] at h4
    simp only [List.cons_append, List.cons.injEq] at h4
    obtain ⟨rfl, -⟩ := h4
    exact absurd (h3 '-' (by simp)).1 (by decide)

theorem nodup_index {α : Type} {l : List α} (h : l.Nodup) {i j : Nat} {a : α} (hi : l[i]? = some a)
    (hj : l[j]? = some a) : i = j := by
  have h1 := (List.getElem?_eq_some_iff.1 hi).1
  exact (List.getElem?_inj h1 h).1 (hi.trans hj.symm)

/-- C100, with the names of the pack, or fallback names that are not the name of another channel (false
else, see `C100_counterexample`). -/
theorem C100_records_partial : RecordsByKey false := by
  intro ident p part nof fallback ns rows hd hn hno h
  obtain ⟨keys, dests, hf, hlen, hres, hrows⟩ := C100_lookup ident p hd hn part nof fallback ns rows h
  have hnod : ns.Nodup := (C19_records_agree ident p part nof fallback ns rows h).2.1
  have heq : dests = keys := by
    apply List.ext_getElem?
    intro j
    cases hj : keys[j]? with
    | none =>
      rw [List.getElem?_eq_none_iff] at hj ⊢
      omega
    | some k =>
      obtain ⟨s, hs, hfk⟩ := fields_exist hf hj
      have hjd : j < dests.length := by rw [hlen]; exact (List.getElem?_eq_some_iff.1 hj).1
      have hdj := List.getElem?_eq_getElem hjd
      have hr := hres j s _ hs hdj
      rw [hdj]
      congr 1
      generalize dests[j] = k' at hr
      obtain ⟨hk', hr⟩ := hr
      cases fallback with
      | false =>
        have hfk : (k, Val.str s) ∈ p.names := hfk
        rcases hr with hr | ⟨hr, -⟩
        · have hm := firstNamed_mem hr
          have hk2 : k' ∈ keys := by
            rw [hf.2.1]
            show k' ∈ dkeys p.names
            exact List.mem_map_of_mem (f := Prod.fst) hm
          obtain ⟨j', hj'⟩ := List.mem_iff_getElem?.1 hk2
          obtain ⟨s', hs', hfk'⟩ := fields_exist hf hj'
          have hfk' : (k', Val.str s') ∈ p.names := hfk'
          have e : s' = s := by
            have e1 := dget_of_mem hn hfk'
            rw [dget_of_mem hn hm] at e1
            simpa using e1.symm
          subst e
          have := nodup_index hnod hs hs'
          subst this
          rw [hj] at hj'
          simpa using hj'.symm
        · exact absurd rfl (hr _ hfk)
      | true =>
        have hfk : s = p.pre ++ decInt k := hfk
        have hkd : k ∈ dkeys p.data := (hf.2.1 k).1 (List.mem_of_getElem? hj)
        subst hfk
        rcases hr with hr | ⟨-, n, hr, rfl⟩
        · exact hno rfl rfl k' k (firstNamed_mem hr) hkd
        · by_cases hneg : k < 0
          · exact absurd hr (not_fallback_neg _ _ hneg _)
          · obtain ⟨m, rfl⟩ : ∃ m : Nat, k = m := ⟨k.toNat, by omega⟩
            rw [decInt_nat] at hr
            rw [IsFallback.unique (isFallback_dec p.pre m) hr]
  subst heq
  exact ⟨dests, hf, hrows⟩

/-- C100: with fallback names, the column of a key whose fallback name is the name of a channel (the first
of that name) holds that channel, whatever its key. -/
theorem C100_foreign (ident : List Char → Bool) (p : Pack) (hd : (dkeys p.data).Nodup) (hn : (dkeys p.names).Nodup)
    (part : Option Int) (nof : Option String) (ns : List (List Char)) (rows : List (List Val))
    (h : p.records ident part nof true = .ok (ns, rows)) (k k' : Int) (hk : k ∈ dkeys p.data)
    (hf : FirstNamed p.names (p.pre ++ decInt k) k') :
    ∃ j : Nat, ns[j]? = some (p.pre ++ decInt k) ∧ ∀ (i : Nat) row, rows[i]? = some row →
      ∃ vals, p.holds part nof k' vals ∧ row[j]? = vals[i]? := by
  obtain ⟨keys, dests, hfs, hlen, hres, hrows⟩ := C100_lookup ident p hd hn part nof true ns rows h
  obtain ⟨j, hj⟩ := List.mem_iff_getElem?.1 ((hfs.2.1 k).2 hk)
  obtain ⟨s, hs, hfk⟩ := fields_exist hfs hj
  have hfk : s = p.pre ++ decInt k := hfk
  subst hfk
  refine ⟨j, hs, ?_⟩
  intro i row hrow
  have hjd : j < dests.length := by rw [hlen]; exact (List.getElem?_eq_some_iff.1 hj).1
  have hdj := List.getElem?_eq_getElem hjd
  obtain ⟨hk', hr⟩ := hres j _ _ hs hdj
  have e : dests[j] = k' := by
    rcases hr with hr | ⟨hr, -⟩
    · exact FirstNamed.unique hr hf
    · exact absurd rfl (hr _ (firstNamed_mem hf))
  rw [e] at hdj
  exact (hrows.cell i row hrow).2 j k' hdj

theorem callAll_ok {f : List Char → Except Exc Arr} {ns : List (List Char)} :
    (∃ cols, callAll f ns = .ok cols) ↔ ∀ n ∈ ns, ∃ a, f n = .ok a := by
  induction ns with
  | nil => simp [callAll]
  | cons n ns ih =>
    unfold callAll
    cases hn : f n with
    | error e => simp [hn]
    | ok a =>
      dsimp only
      cases hc : callAll f ns with
      | error e =>
        rw [hc] at ih
        constructor
        · rintro ⟨c, h⟩; simp at h
        · intro h
          obtain ⟨c, h⟩ := ih.2 fun m hm => h m (by simp [hm])
          simp at h
      | ok cs =>
        rw [hc] at ih
        constructor
        · intro _ m hm
          rcases List.mem_cons.1 hm with rfl | hm
          · exact ⟨a, hn⟩
          · exact ih.1 ⟨cs, rfl⟩ m hm
        · intro _; exact ⟨_, rfl⟩

/-- C100: when there are records.  The names must do for a namedtuple, and what they lead to must be
channels that can be called. -/
theorem C100_accepts (ident : List Char → Bool) (p : Pack) (hd : (dkeys p.data).Nodup) (hn : (dkeys p.names).Nodup)
    (part : Option Int) (nof : Option String) (fallback : Bool) :
    (∃ r, p.records ident part nof fallback = .ok r) ↔
      ∃ keys ns, RecordFields (p.isField fallback) (p.field fallback) keys ns ∧ ns.Nodup ∧
        (∀ s ∈ ns, ident s = true ∧ s.head? ≠ some '_') ∧
        ∀ s ∈ ns, ∃ k a, ResolvesStr p.pre (· ∈ dkeys p.data) p.names s k ∧ p.call (.int k) part nof = .ok a := by
  have hcall : ∀ s, (∃ a, p.call (.str s) part nof = .ok a) ↔
      ∃ k a, ResolvesStr p.pre (· ∈ dkeys p.data) p.names s k ∧ p.call (.int k) part nof = .ok a := by
    intro s
    constructor
    · rintro ⟨a, ha⟩
      obtain ⟨k, hk⟩ := call_ok_key ha
      exact ⟨k, a, ((C15_lookup_order p).2.1 s k).1 hk, by rw [← call_key hk]; exact ha⟩
    · rintro ⟨k, a, hk, ha⟩
      have hk := ((C15_lookup_order p).2.1 s k).2 hk
      exact ⟨a, by rw [call_key hk]; exact ha⟩
  have hrec : (∃ r, p.records ident part nof fallback = .ok r) ↔
      ∃ ns, p.recordNames fallback = some ns ∧ validFields ident ns = true ∧
        ∀ n ∈ ns, ∃ a, p.call (.str n) part nof = .ok a := by
    unfold Pack.records
    cases hns : p.recordNames fallback with
    | none => simp
    | some ns =>
      dsimp only
      by_cases hv : validFields ident ns = true
      · rw [if_pos hv]
        have := callAll_ok (f := fun n => p.call (.str n) part nof) (ns := ns)
        cases hc : callAll (fun n => p.call (.str n) part nof) ns with
        | error e =>
          rw [hc] at this
          constructor
          · rintro ⟨r, h⟩; simp at h
          · rintro ⟨ns', h1, -, h3⟩
            simp only [Option.some.injEq] at h1
            subst h1
            obtain ⟨c, h⟩ := this.2 h3
            simp at h
        | ok cols =>
          rw [hc] at this
          exact ⟨fun _ => ⟨ns, rfl, hv, this.1 ⟨cols, rfl⟩⟩, fun _ => ⟨_, rfl⟩⟩
      · rw [if_neg hv]
        constructor
        · rintro ⟨r, h⟩; simp at h
        · rintro ⟨ns', h1, h2, -⟩
          simp only [Option.some.injEq] at h1
          subst h1
          exact absurd h2 hv
  rw [hrec]
  have hvalid : ∀ ns, validFields ident ns = true ↔ (∀ s ∈ ns, ident s = true ∧ s.head? ≠ some '_') ∧ ns.Nodup := by
    intro ns
    unfold validFields
    simp
  constructor
  · rintro ⟨ns, h1, h2, h3⟩
    obtain ⟨keys, hf⟩ := recordNames_fields hd hn h1
    obtain ⟨v1, v2⟩ := (hvalid ns).1 h2
    exact ⟨keys, ns, hf, v2, v1, fun s hs => (hcall s).1 (h3 s hs)⟩
  · rintro ⟨keys, ns, hf, v2, v1, h3⟩
    refine ⟨ns, ?_, (hvalid ns).2 ⟨v1, v2⟩, fun s hs => (hcall s).2 (h3 s hs)⟩
    -- the fields are determined by the keys
    have hkeys : ∀ {l : List Int}, l.Pairwise (· < ·) → (∀ k, k ∈ l ↔ p.isField fallback k) → l = keys := by
      intro l h1 h2
      have hperm : l.Perm keys := by
        rw [List.perm_ext_iff_of_nodup (h1.imp (by intro a b h; omega)) (hf.1.imp (by intro a b h; omega))]
        intro k
        rw [h2, hf.2.1]
      exact hperm.eq_of_pairwise (le := (· < ·)) (fun a b _ _ h1 h2 => by omega) h1 hf.1
    unfold Pack.recordNames
    cases fallback with
    | true =>
      simp only [if_true, Option.some.injEq]
      rw [hkeys (sortInts_lt hd) (fun k => mem_sortInts)]
      apply List.ext_getElem?
      intro j
      rw [List.getElem?_map]
      cases hj : keys[j]? with
      | none =>
        rw [List.getElem?_eq_none_iff] at hj
        rw [List.getElem?_eq_none (by rw [hf.2.2.1]; exact hj)]
        rfl
      | some k =>
        obtain ⟨s, hs, hfk⟩ := fields_exist hf hj
        have hfk : s = p.pre ++ decInt k := hfk
        rw [hs, hfk]; rfl
    | false =>
      simp only [Bool.false_eq_true, if_false]
      rw [hkeys (sortInts_lt hn) (fun k => mem_sortInts)]
      have hgen : ∀ (ks : List Int) (ms : List (List Char)), ms.length = ks.length →
          (∀ (j : Nat) k s, ks[j]? = some k → ms[j]? = some s → (k, Val.str s) ∈ p.names) →
          strNames (ks.filterMap (dget p.names)) = some ms := by
        intro ks
        induction ks with
        | nil =>
          intro ms hl _
          have : ms = [] := List.length_eq_zero_iff.1 hl
          subst this; rfl
        | cons k ks ih =>
          intro ms hl hm
          cases ms with
          | nil => simp at hl
          | cons s ms =>
            have h0 := dget_of_mem hn (hm 0 k s rfl rfl)
            rw [List.filterMap_cons_some h0]
            unfold strNames
            rw [ih ms (by simpa using hl) (fun j k s h1 h2 => hm (j + 1) k s h1 h2)]
            rfl
      exact hgen keys ns hf.2.2.1 hf.2.2.2

/-- Channel 0 is named `ch1`, channel 1 `ch0`. -/
def exSwapped : Pack := Pack.init [(0, ⟨.i, [.int 1, .int 2]⟩), (1, ⟨.i, [.int 3, .int 4]⟩)]
  [(0, .str ['c', 'h', '1']), (1, .str ['c', 'h', '0'])]

/-- C100: with fallback names the field `ch0` holds channel 1. -/
theorem C100_swapped :
    exSwapped.records (fun _ => true) none none true =
      .ok ([['c', 'h', '0'], ['c', 'h', '1']], [[.int 3, .int 1], [.int 4, .int 2]]) ∧
    exSwapped.call (.int 0) none none = .ok ⟨.i, [.int 1, .int 2]⟩ := by decide +kernel

/-- C100: false with fallback names. -/
theorem C100_counterexample : ¬ RecordsByKey true := by
  intro hall
  obtain ⟨keys, hf, hr⟩ := hall (fun _ => true) exSwapped none none true _ _ (by decide) (by decide) (by simp) C100_swapped.1
  obtain ⟨j, hj⟩ := List.mem_iff_getElem?.1 ((hf.2.1 0).2 (show (0 : Int) ∈ dkeys exSwapped.data by decide))
  obtain ⟨s, hs, hfk⟩ := fields_exist hf hj
  have hfk : s = ['c', 'h', '0'] := Eq.trans (show s = exSwapped.pre ++ decInt 0 from hfk) (by decide +kernel)
  subst hfk
  obtain ⟨-, h1⟩ := hr.cell 0 _ rfl
  obtain ⟨vals, ⟨a, h2, rfl⟩, h3⟩ := h1 j 0 hj
  rw [C100_swapped.2] at h2
  cases h2
  have hj2 : j < 2 := (List.getElem?_eq_some_iff.1 hs).1
  have : j = 0 ∨ j = 1 := by omega
  rcases this with rfl | rfl
  · simp at h3
  · simp at hs

example : NoForeign exA ∧ (dkeys exA.data).Nodup ∧ (dkeys exA.names).Nodup ∧
    exA.records (fun _ => true) none none true = .ok ([['c', 'h', '0']], [[.int 1], [.int 2]]) := by
  refine ⟨?_, by decide, by decide, by decide +kernel⟩
  intro k k' h _
  have h1 : exA.names = [(0, .str ['A'])] := by decide +kernel
  have h2 : exA.pre = ['c', 'h'] := by decide +kernel
  rw [h1, h2] at h
  simp at h

/-- A negative key has no fallback name to find it by: no records. -/
example : (Pack.init [(-1, ⟨.i, [.int 1]⟩)] []).records (fun _ => true) none none true = .error .keyError := by decide +kernel

end CP
