import Verif.Props.RecordKeys
/-!
# C100: exactly which records with fallback names hold the channels of their keys
-/

namespace CP
open Spec

theorem fields_keys {isKey : Int → Prop} {f g : Int → List Char → Prop} {k1 k2 : List Int} {n1 n2 : List (List Char)}
    (h1 : RecordFields isKey f k1 n1) (h2 : RecordFields isKey g k2 n2) : k1 = k2 := by
  have hperm : k1.Perm k2 := by
    rw [List.perm_ext_iff_of_nodup (h1.1.imp (by intro a b h; omega)) (h2.1.imp (by intro a b h; omega))]
    intro k
    rw [h1.2.1, h2.2.1]
  exact hperm.eq_of_pairwise (le := (· < ·)) (fun a b _ _ h1 h2 => by omega) h1.1 h2.1

theorem holds_unique {p : Pack} {part : Option Int} {nof : Option String} {k : Int} {v w : List Val}
    (h1 : p.holds part nof k v) (h2 : p.holds part nof k w) : v = w := by
  obtain ⟨a, h1, rfl⟩ := h1
  obtain ⟨b, h2, rfl⟩ := h2
  rw [h1] at h2
  cases h2
  rfl

/-- Where the field of a key leads to, with fallback names: to the first channel of that name, else to
the key itself. -/
theorem fallback_leads {p : Pack} {k k' : Int}
    (h : ResolvesStr p.pre (· ∈ dkeys p.data) p.names (p.pre ++ decInt k) k') :
    k' = k ∨ FirstNamed p.names (p.pre ++ decInt k) k' := by
  obtain ⟨-, hr | ⟨-, n, hr, rfl⟩⟩ := h
  · exact .inr hr
  · by_cases hneg : k < 0
    · exact absurd hr (not_fallback_neg _ _ hneg _)
    · obtain ⟨m, rfl⟩ : ∃ m : Nat, k = m := ⟨k.toNat, by omega⟩
      rw [decInt_nat] at hr
      rw [IsFallback.unique (isFallback_dec p.pre m) hr]
      exact .inl rfl

/-- C100 exactly, for channels of equal length: records with fallback names hold the channels of their
keys if and only if each channel whose fallback name is the name of a channel has the values of the
first one with that name. -/
theorem C100_exact (ident : List Char → Bool) (p : Pack) (hd : (dkeys p.data).Nodup) (hn : (dkeys p.names).Nodup)
    (part : Option Int) (nof : Option String) (ns : List (List Char)) (rows : List (List Val))
    (h : p.records ident part nof true = .ok (ns, rows)) (L : Nat)
    (hL : ∀ k vals, p.holds part nof k vals → vals.length = L) :
    (∃ keys, RecordFields (p.isField true) (p.field true) keys ns ∧ RowsOf (p.holds part nof) keys rows) ↔
      ∀ k k', k ∈ dkeys p.data → FirstNamed p.names (p.pre ++ decInt k) k' →
        ∃ vals, p.holds part nof k vals ∧ p.holds part nof k' vals := by
  obtain ⟨keys, dests, hf, hlen, hres, hrows⟩ := C100_lookup ident p hd hn part nof true ns rows h
  have at_ : ∀ (j : Nat) k, keys[j]? = some k → ns[j]? = some (p.pre ++ decInt k) ∧
      ∃ k', dests[j]? = some k' ∧ (k' = k ∨ FirstNamed p.names (p.pre ++ decInt k) k') ∧
        (∀ k2, FirstNamed p.names (p.pre ++ decInt k) k2 → k2 = k') := by
    intro j k hj
    obtain ⟨s, hs, hfk⟩ := fields_exist hf hj
    have hfk : s = p.pre ++ decInt k := hfk
    subst hfk
    have hjd : j < dests.length := by rw [hlen]; exact (List.getElem?_eq_some_iff.1 hj).1
    have hdj := List.getElem?_eq_getElem hjd
    refine ⟨hs, dests[j], hdj, fallback_leads (hres j _ _ hs hdj), ?_⟩
    intro k2 h2
    obtain ⟨-, hr | ⟨hr, -⟩⟩ := hres j _ _ hs hdj
    · exact FirstNamed.unique h2 hr
    · exact absurd rfl (hr _ (firstNamed_mem h2))
  constructor
  · rintro ⟨keys', hf', hr'⟩ k k' hk hfn
    rw [fields_keys hf' hf] at hr'
    have hkm : k ∈ keys := (hf.2.1 k).2 hk
    obtain ⟨j, hj⟩ := List.mem_iff_getElem?.1 hkm
    obtain ⟨-, k2, hdj, -, hu⟩ := at_ j k hj
    have := hu k' hfn
    subst this
    obtain ⟨v, hv, hv1⟩ := hr'.column k hkm
    obtain ⟨w, hw, hw1⟩ := hrows.column k' (List.mem_of_getElem? hdj)
    obtain ⟨m, hm, u, hu1, hu2⟩ := hr'.shortest (List.ne_nil_of_mem hkm)
    have hrl : rows.length = L := by rw [← hL _ _ hu1]; exact hu2
    have hvw : v = w := by
      apply List.ext_getElem?
      intro i
      by_cases hi : i < rows.length
      · obtain ⟨v', hv', e1⟩ := (hr'.cell i _ (List.getElem?_eq_getElem hi)).2 j k hj
        obtain ⟨w', hw', e2⟩ := (hrows.cell i _ (List.getElem?_eq_getElem hi)).2 j k' hdj
        rw [holds_unique hv hv', holds_unique hw hw', ← e1, e2]
      · rw [List.getElem?_eq_none (by rw [hL _ _ hv]; omega), List.getElem?_eq_none (by rw [hL _ _ hw]; omega)]
    exact ⟨v, hv, hvw ▸ hw⟩
  · intro hall
    have same : ∀ (j : Nat) k k', keys[j]? = some k → dests[j]? = some k' → ∀ vals, p.holds part nof k' vals → p.holds part nof k vals := by
      intro j k k' hj hdj vals hv
      obtain ⟨-, k2, hdj', hor, -⟩ := at_ j k hj
      rw [hdj] at hdj'
      cases hdj'
      rcases hor with rfl | hfn
      · exact hv
      · obtain ⟨w, h1, h2⟩ := hall k k' ((hf.2.1 k).1 (List.mem_of_getElem? hj)) hfn
        rw [holds_unique hv h2]
        exact h1
    have other : ∀ (j : Nat) k', dests[j]? = some k' → ∃ k, keys[j]? = some k := by
      intro j k' hdj
      have : j < keys.length := by rw [← hlen]; exact (List.getElem?_eq_some_iff.1 hdj).1
      exact ⟨_, List.getElem?_eq_getElem this⟩
    refine ⟨keys, hf, ?_, ?_, ?_, ?_⟩
    · intro i row hrow
      obtain ⟨h1, h2⟩ := hrows.cell i row hrow
      refine ⟨by omega, ?_⟩
      intro j k hj
      obtain ⟨-, k', hdj, -⟩ := at_ j k hj
      obtain ⟨v, hv, e⟩ := h2 j k' hdj
      exact ⟨v, same j k k' hj hdj v hv, e⟩
    · intro k hk
      obtain ⟨j, hj⟩ := List.mem_iff_getElem?.1 hk
      obtain ⟨-, k', hdj, -⟩ := at_ j k hj
      obtain ⟨v, hv, e⟩ := hrows.column k' (List.mem_of_getElem? hdj)
      exact ⟨v, same j k k' hj hdj v hv, e⟩
    · intro hne
      have : dests ≠ [] := by
        rintro rfl
        exact hne (List.length_eq_zero_iff.1 (by simpa using hlen.symm))
      obtain ⟨k', hk', v, hv, e⟩ := hrows.shortest this
      obtain ⟨j, hdj⟩ := List.mem_iff_getElem?.1 hk'
      obtain ⟨k, hj⟩ := other j k' hdj
      exact ⟨k, List.mem_of_getElem? hj, v, same j k k' hj hdj v hv, e⟩
    · intro he
      have : dests = [] := List.length_eq_zero_iff.1 (by rw [hlen, he]; rfl)
      exact hrows.empty this

/-! ## Examples -/

/-- Channels 0 and 1 with the names of each other and the same values. -/
def exTwins : Pack := Pack.init [(0, ⟨.i, [.int 1, .int 2]⟩), (1, ⟨.i, [.int 1, .int 2]⟩)]
  [(0, .str ['c', 'h', '1']), (1, .str ['c', 'h', '0'])]

theorem held {p : Pack} {k : Int} (hk : k ∉ dkeys p.data) (part : Option Int) (nof : Option String) (vals : List Val) :
    ¬ p.holds part nof k vals := by
  rintro ⟨a, h, -⟩
  obtain ⟨k', h'⟩ := call_ok_key h
  rw [(C15_lookup_order p).1, if_neg hk] at h'
  cases h'

/-- Equal lengths, names of each other: right with the same values, wrong with others. -/
example : (∃ keys, RecordFields (exTwins.isField true) (exTwins.field true) keys [['c', 'h', '0'], ['c', 'h', '1']] ∧
      RowsOf (exTwins.holds none none) keys [[.int 1, .int 1], [.int 2, .int 2]]) ∧
    ¬ ∃ keys, RecordFields (exSwapped.isField true) (exSwapped.field true) keys [['c', 'h', '0'], ['c', 'h', '1']] ∧
      RowsOf (exSwapped.holds none none) keys [[.int 3, .int 1], [.int 4, .int 2]] := by
  have t0 : exTwins.call (.int 0) none none = .ok ⟨.i, [.int 1, .int 2]⟩ := by decide +kernel
  have t1 : exTwins.call (.int 1) none none = .ok ⟨.i, [.int 1, .int 2]⟩ := by decide +kernel
  have s0 : exSwapped.call (.int 0) none none = .ok ⟨.i, [.int 1, .int 2]⟩ := by decide +kernel
  have s1 : exSwapped.call (.int 1) none none = .ok ⟨.i, [.int 3, .int 4]⟩ := by decide +kernel
  have dt : dkeys exTwins.data = [0, 1] := by decide +kernel
  have ds : dkeys exSwapped.data = [0, 1] := by decide +kernel
  have lt : ∀ k vals, exTwins.holds none none k vals → vals = [.int 1, .int 2] := by
    intro k vals h
    by_cases hk : k ∈ dkeys exTwins.data
    · obtain ⟨a, h, rfl⟩ := h
      rw [dt] at hk
      simp only [List.mem_cons, List.not_mem_nil, or_false] at hk
      rcases hk with rfl | rfl
      · rw [t0] at h; cases h; rfl
      · rw [t1] at h; cases h; rfl
    · exact absurd h (held hk _ _ _)
  have ls : ∀ k vals, exSwapped.holds none none k vals → vals.length = 2 := by
    intro k vals h
    by_cases hk : k ∈ dkeys exSwapped.data
    · obtain ⟨a, h, rfl⟩ := h
      rw [ds] at hk
      simp only [List.mem_cons, List.not_mem_nil, or_false] at hk
      rcases hk with rfl | rfl
      · rw [s0] at h; cases h; rfl
      · rw [s1] at h; cases h; rfl
    · exact absurd h (held hk _ _ _)
  constructor
  · refine (C100_exact (fun _ => true) exTwins (by decide) (by decide) none none _ _ (by decide +kernel) 2
      (fun k vals h => by rw [lt k vals h]; rfl)).2 ?_
    intro k k' hk hf
    have hk' : k' ∈ dkeys exTwins.data := by
      have := firstNamed_mem hf
      have hn : exTwins.names = [(0, .str ['c', 'h', '1']), (1, .str ['c', 'h', '0'])] := by decide +kernel
      rw [hn] at this
      rw [dt]
      simp only [List.mem_cons, Prod.mk.injEq, List.not_mem_nil, or_false] at this ⊢
      rcases this with h | h
      · exact .inl h.1
      · exact .inr h.1
    have any : ∀ k, k ∈ dkeys exTwins.data → exTwins.holds none none k [.int 1, .int 2] := by
      intro k hk
      rw [dt] at hk
      simp only [List.mem_cons, List.not_mem_nil, or_false] at hk
      rcases hk with rfl | rfl
      · exact ⟨_, t0, rfl⟩
      · exact ⟨_, t1, rfl⟩
    exact ⟨_, any k hk, any k' hk'⟩
  · intro h
    obtain ⟨v, ⟨a, h1, rfl⟩, ⟨b, h2, h3⟩⟩ := (C100_exact (fun _ => true) exSwapped (by decide) (by decide) none none _ _ C100_swapped.1 2 ls).1 h 0 1
      (by rw [ds]; simp) ⟨[(0, .str ['c', 'h', '1'])], [], by decide +kernel, by decide +kernel⟩
    rw [s0] at h1
    rw [s1] at h2
    cases h1
    cases h2
    simp at h3

end CP
