import Verif.Lemmas.Invariant
/-!
# Association-list dicts and the append loop
-/

namespace CP

section
variable {κ ν : Type} [DecidableEq κ]

theorem dget_dset_same (d : List (κ × ν)) (k : κ) (v : ν) : dget (dset d k v) k = some v := by
  induction d with
  | nil => simp [dset, dget]
  | cons p d ih =>
    obtain ⟨k', v'⟩ := p
    unfold dset
    split
    · rename_i h; simp [dget, h]
    · rename_i h; simp [dget, h, ih]

theorem dget_dset_ne (d : List (κ × ν)) {k k' : κ} (v : ν) (h : k' ≠ k) :
    dget (dset d k v) k' = dget d k' := by
  induction d with
  | nil => simp [dset, dget, Ne.symm h]
  | cons p d ih =>
    obtain ⟨k₁, v₁⟩ := p
    unfold dset
    split
    · rename_i h1
      subst h1
      simp [dget, Ne.symm h]
    · simp only [dget, ih]

theorem dkeys_dset_of_mem {d : List (κ × ν)} {k : κ} (v : ν) (h : k ∈ dkeys d) :
    dkeys (dset d k v) = dkeys d := by
  induction d with
  | nil => simp [dkeys] at h
  | cons p d ih =>
    obtain ⟨k₁, v₁⟩ := p
    unfold dset
    split
    · simp [dkeys]
    · rename_i h1
      have : k ∈ dkeys d := by
        simp only [dkeys, List.map_cons, List.mem_cons] at h
        rcases h with h | h
        · exact absurd h.symm h1
        · exact h
      have := ih this
      simp only [dkeys, List.map_cons] at this ⊢
      rw [this]

theorem mem_dkeys_dset {d : List (κ × ν)} {k x : κ} {v : ν} :
    x ∈ dkeys (dset d k v) ↔ x = k ∨ x ∈ dkeys d := by
  rw [← dget_isSome, ← dget_isSome]
  by_cases h : x = k
  · subst h; simp [dget_dset_same]
  · simp [dget_dset_ne d v h, h]

theorem dget_mem {d : List (κ × ν)} {k : κ} {v : ν} (h : dget d k = some v) : (k, v) ∈ d := by
  induction d with
  | nil => simp [dget] at h
  | cons p d ih =>
    obtain ⟨k₁, v₁⟩ := p
    unfold dget at h
    split at h
    · rename_i h1
      simp only [Option.some.injEq] at h
      simp [h1, h]
    · simp [ih h]

theorem dget_of_mem {d : List (κ × ν)} (hn : (dkeys d).Nodup) {k : κ} {v : ν} (h : (k, v) ∈ d) :
    dget d k = some v := by
  induction d with
  | nil => simp at h
  | cons p d ih =>
    obtain ⟨k₁, v₁⟩ := p
    simp only [dkeys, List.map_cons, List.nodup_cons] at hn
    unfold dget
    rcases List.mem_cons.1 h with h1 | h1
    · simp only [Prod.mk.injEq] at h1; simp [h1.1, h1.2]
    · split
      · rename_i h2
        subst h2
        exact absurd (List.mem_map.2 ⟨(k₁, v), h1, rfl⟩) hn.1
      · exact ih hn.2 h1

theorem nodup_dset {d : List (κ × ν)} (hn : (dkeys d).Nodup) (k : κ) (v : ν) :
    (dkeys (dset d k v)).Nodup := by
  induction d with
  | nil => simp [dset, dkeys]
  | cons p d ih =>
    obtain ⟨k₁, v₁⟩ := p
    simp only [dkeys, List.map_cons, List.nodup_cons] at hn
    unfold dset
    split
    · simpa [dkeys] using hn
    · rename_i h1
      simp only [dkeys, List.map_cons, List.nodup_cons]
      refine ⟨?_, ih hn.2⟩
      intro hm
      have : k₁ ∈ dkeys (dset d k v) := hm
      rw [mem_dkeys_dset] at this
      rcases this with h2 | h2
      · exact h1 h2
      · exact hn.1 h2

end

/-- What `np.append` promises for two arrays. -/
def Appended (a b c : Arr) : Prop :=
  c.els.length = a.els.length + b.els.length ∧
  (a.kind = b.kind → c = ⟨a.kind, a.els ++ b.els⟩)

theorem npAppend_spec {E : NpEnv} {a b c : Arr} (h : npAppend E a b = .ok c) : Appended a b c := by
  unfold npAppend at h
  split at h
  · rename_i hk
    simp only [Except.ok.injEq] at h
    subst h
    exact ⟨by simp, fun _ => rfl⟩
  · rename_i hk
    split at h
    · simp only [Except.ok.injEq] at h
      subst h
      exact ⟨by simp, fun h' => absurd h' hk⟩
    · simp at h

theorem appendLoop_spec {E : NpEnv} {d o : List (Int × Arr)} {d' : List (Int × Arr)}
    (ho : (dkeys o).Nodup) (h : appendLoop E d o = (d', none)) :
    dkeys d' = dkeys d ∧
    (∀ k, k ∉ dkeys o → dget d' k = dget d k) ∧
    (∀ k a b, dget d k = some a → dget o k = some b →
      ∃ c, dget d' k = some c ∧ Appended a b c) := by
  induction o generalizing d with
  | nil =>
    simp only [appendLoop, Prod.mk.injEq, and_true] at h
    subst h
    refine ⟨rfl, fun _ _ => rfl, ?_⟩
    intro k a b _ hb; simp [dget] at hb
  | cons p o ih =>
    obtain ⟨k, b⟩ := p
    simp only [dkeys, List.map_cons, List.nodup_cons] at ho
    unfold appendLoop at h
    split at h
    · simp at h
    · rename_i a ha
      split at h
      · simp at h
      · rename_i c hc
        obtain ⟨h1, h2, h3⟩ := ih ho.2 h
        have hk : k ∈ dkeys d := dget_isSome.1 (by rw [ha]; rfl)
        refine ⟨by rw [h1, dkeys_dset_of_mem _ hk], ?_, ?_⟩
        · intro k' hk'
          simp only [dkeys, List.map_cons, List.mem_cons, not_or] at hk'
          rw [h2 k' hk'.2, dget_dset_ne _ _ hk'.1]
        · intro k' a' b' ha' hb'
          unfold dget at hb'
          split at hb'
          · rename_i heq
            subst heq
            rw [ha] at ha'
            simp only [Option.some.injEq] at ha' hb'
            subst ha' hb'
            refine ⟨c, ?_, npAppend_spec hc⟩
            rw [h2 k ho.1, dget_dset_same]
          · rename_i hne
            apply h3 k' a' b' _ hb'
            rw [dget_dset_ne _ _ (Ne.symm hne), ha']

/-- With matching kinds the loop cannot fail. -/
theorem appendLoop_ok {E : NpEnv} {d o : List (Int × Arr)} (ho : (dkeys o).Nodup)
    (hk : ∀ k b, dget o k = some b → ∃ a, dget d k = some a ∧ a.kind = b.kind) :
    ∃ d', appendLoop E d o = (d', none) := by
  induction o generalizing d with
  | nil => exact ⟨d, rfl⟩
  | cons p o ih =>
    obtain ⟨k, b⟩ := p
    simp only [dkeys, List.map_cons, List.nodup_cons] at ho
    obtain ⟨a, ha, hab⟩ := hk k b (by simp [dget])
    unfold appendLoop
    simp only [ha, npAppend, hab, if_true]
    apply ih ho.2
    intro k' b' hb'
    have hne : k' ≠ k := by
      rintro rfl
      exact ho.1 (dget_isSome.1 (show (dget o k').isSome by rw [hb']; rfl))
    obtain ⟨a', ha', hab'⟩ := hk k' b' (by simp [dget, Ne.symm hne, hb'])
    exact ⟨a', by rw [dget_dset_ne _ _ hne, ha'], hab'⟩

theorem sameKeys_iff {a b : List Int} : sameKeys a b = true ↔ ∀ k, k ∈ a ↔ k ∈ b := by
  unfold sameKeys
  simp only [Bool.and_eq_true, List.all_eq_true, decide_eq_true_eq]
  constructor
  · rintro ⟨h1, h2⟩ k; exact ⟨h1 k, h2 k⟩
  · intro h; exact ⟨fun k hk => (h k).1 hk, fun k hk => (h k).2 hk⟩

end CP
