import Verif.Props.PackDbf
import Verif.Spec.PackBecomes
/-!
# C93, C94: exactly what the channels of text and dbf files hold
-/

namespace CP
open Spec

/-- A column of numbers, of text, of bytes or of dates. -/
def PureColumn (vals : List Val) : Prop :=
  (∀ v ∈ vals, Numeric v ∨ ∃ i : Int, v = .int i) ∨ (∀ v ∈ vals, ∃ s, v = .str s) ∨ (∀ v ∈ vals, ∃ s, v = .bytes s) ∨
  ∀ v ∈ vals, v = .none ∨ ∃ y m d, v = .date y m d

theorem becomes_text {vals : List Val} (s : List Char) : Becomes vals (.str s) (.str (dropNuls '\x00' s)) := by
  obtain ⟨h1, n, h2⟩ := dropNuls_last '\x00' s
  exact ⟨_, n, h2, h1, rfl⟩

theorem becomes_bytes {vals : List Val} (s : List UInt8) : Becomes vals (.bytes s) (.bytes (dropNuls 0 s)) := by
  obtain ⟨h1, n, h2⟩ := dropNuls_last 0 s
  exact ⟨_, n, h2, h1, rfl⟩

theorem becomes_self {vals : List Val} {v : Val} (hs : ∀ s, v ≠ .str s) (hb : ∀ s, v ≠ .bytes s) (hi : (∃ i, v = .int i) → ¬ Rounds vals) :
    Becomes vals v v := by
  unfold Becomes
  split
  · exact absurd rfl (hs _)
  · exact absurd rfl (hb _)
  · exact ⟨fun h => absurd h (hi ⟨_, rfl⟩), fun _ => rfl⟩
  · rfl

/-- One value. -/
theorem item_becomes {ft : Rat → List Char} {vals : List Val} (h : PureColumn vals) {v : Val} (hv : v ∈ vals) :
    ∃ w, npItem ft (npKind vals) v = .ok w ∧ Becomes vals v w := by
  have num_ns : ∀ v, (Numeric v ∨ ∃ i : Int, v = .int i) → (∀ s, v ≠ .str s) ∧ ∀ s, v ≠ .bytes s := by
    rintro v ((⟨q, rfl⟩ | rfl | ⟨n, rfl⟩) | ⟨i, rfl⟩) <;> exact ⟨(fun _ h => by cases h), (fun _ h => by cases h)⟩
  have date_ns : ∀ v, (v = Val.none ∨ ∃ y m d, v = .date y m d) → (∀ s, v ≠ .str s) ∧ (∀ s, v ≠ .bytes s) ∧ IsObject v ∧ ∀ i, v ≠ .int i := by
    rintro v (rfl | ⟨y, m, d, rfl⟩) <;>
      exact ⟨(fun _ h => by cases h), (fun _ h => by cases h), ⟨(fun h => by cases h), (fun _ h => by cases h), (fun _ h => by cases h)⟩,
        (fun _ h => by cases h)⟩
  rcases kind_cases vals with ⟨hk, x, hx, hxo⟩ | ⟨hno, ⟨hk, x, hx, s, rfl⟩ | ⟨hns, ⟨hk, x, hx, s, rfl⟩ | ⟨hn, hnum⟩⟩⟩
  · rw [hk]
    refine ⟨v, npItem_O ft v, ?_⟩
    have hr : ¬ Rounds vals := fun h => hxo.1 (h.1 x hx)
    rcases h with h | h | h | h
    · exact becomes_self (num_ns v (h v hv)).1 (num_ns v (h v hv)).2 fun _ => hr
    · obtain ⟨s, rfl⟩ := h x hx
      exact absurd rfl (hxo.2.1 s)
    · obtain ⟨s, rfl⟩ := h x hx
      exact absurd rfl (hxo.2.2 s)
    · obtain ⟨h1, h2, -⟩ := date_ns v (h v hv)
      exact becomes_self h1 h2 fun _ => hr
  · rw [hk]
    rcases h with h | h | h | h
    · exact absurd rfl ((num_ns _ (h _ hx)).1 s)
    · obtain ⟨t, rfl⟩ := h v hv
      exact ⟨_, rfl, becomes_text t⟩
    · obtain ⟨t, ht⟩ := h _ hx
      cases ht
    · exact absurd rfl ((date_ns _ (h _ hx)).1 s)
  · rw [hk]
    rcases h with h | h | h | h
    · exact absurd rfl ((num_ns _ (h _ hx)).2 s)
    · obtain ⟨t, ht⟩ := h _ hx
      cases ht
    · obtain ⟨t, rfl⟩ := h v hv
      exact ⟨_, rfl, becomes_bytes t⟩
    · exact absurd rfl ((date_ns _ (h _ hx)).2.1 s)
  · have hv' := hn v hv
    rcases hnum with ⟨hk, hnf⟩ | ⟨hnf, -, hk⟩
    · have hr : Rounds vals := ⟨hn, by
        rcases hnf with rfl | h
        · cases hv
        · exact h⟩
      rw [hk]
      cases hv' with
      | bool b =>
        rcases h with h | h | h | h
        · rcases h _ hv with (⟨q, h⟩ | h | ⟨n, h⟩) | ⟨i, h⟩ <;> cases h
        · obtain ⟨t, ht⟩ := h _ hv; cases ht
        · obtain ⟨t, ht⟩ := h _ hv; cases ht
        · rcases h _ hv with h | ⟨y, m, d, h⟩ <;> cases h
      | @int i h1 h2 => exact ⟨.flt (f64 i), rfl, fun _ => ⟨_, f64_nearest _, rfl⟩, fun h => absurd hr h⟩
      | flt q => exact ⟨_, rfl, rfl⟩
      | nan => exact ⟨_, rfl, rfl⟩
      | inf s => exact ⟨_, rfl, rfl⟩
    · have hr : ¬ Rounds vals := fun h => hnf h.2
      have hb : ∀ b, v ≠ .bool b := by
        rintro b rfl
        rcases h with h | h | h | h
        · rcases h _ hv with (⟨q, h⟩ | h | ⟨n, h⟩) | ⟨i, h⟩ <;> cases h
        · obtain ⟨t, ht⟩ := h _ hv; cases ht
        · obtain ⟨t, ht⟩ := h _ hv; cases ht
        · rcases h _ hv with h | ⟨y, m, d, h⟩ <;> cases h
      have hkeep : npItem ft (npKind vals) v = .ok v := by
        rcases hk with hk | hk | ⟨hk, hall⟩
        · rw [hk]
          cases hv' with
          | bool b => exact absurd rfl (hb b)
          | _ => rfl
        · rw [hk]
          cases hv' with
          | bool b => exact absurd rfl (hb b)
          | _ => rfl
        · obtain ⟨b, h⟩ := hall v hv
          exact absurd h (hb b)
      refine ⟨v, hkeep, becomes_self ?_ ?_ fun _ => hr⟩
      · rintro s rfl; cases hv'
      · rintro s rfl; cases hv'

theorem array_becomes {ft : Rat → List Char} {vals : List Val} (h : PureColumn vals) :
    ∃ a, npArray ft vals = .ok a ∧ Each2 (Becomes vals) vals a.els := by
  have : ∀ l : List Val, (∀ v ∈ l, v ∈ vals) → ∃ ws, Each2 (fun v w => npItem ft (npKind vals) v = .ok w) l ws ∧ Each2 (Becomes vals) l ws := by
    intro l
    induction l with
    | nil => exact fun _ => ⟨[], .nil, .nil⟩
    | cons v l ih =>
      intro hl
      obtain ⟨ws, h1, h2⟩ := ih fun w hw => hl w (by simp [hw])
      obtain ⟨w, h3, h4⟩ := item_becomes (ft := ft) h (hl v (by simp))
      exact ⟨w :: ws, .cons h3 h1, .cons h4 h2⟩
  obtain ⟨ws, h1, h2⟩ := this vals fun _ h => h
  refine ⟨⟨npKind vals, ws⟩, ?_, h2⟩
  unfold npArray
  rw [npItems_ok.2 h1]

/-- A pack of columns of one kind each: what the channels are. -/
theorem pack_becomes (ft : Rat → List Char) {data : List (Int × List Val)} (names : List (Int × Val)) (h : ∀ x ∈ data, PureColumn x.2) :
    ∃ p, packOfLists ft data names = .ok p ∧ p.names = names ∧ ChannelsBecome data p.data ∧
      (ChannelsHold data p.data ↔ ∀ x ∈ data, Compatible x.2) := by
  obtain ⟨d, hd⟩ := npDict_ok (ft := ft) (data := data) fun x hx => by
    obtain ⟨a, ha, -⟩ := array_becomes (ft := ft) (h x hx); exact ⟨a, ha⟩
  obtain ⟨h1, h2⟩ := npDict_get hd
  obtain ⟨f1, f2⟩ := init_data d names
  refine ⟨Pack.init d names, by unfold packOfLists; rw [hd], f2, ?_, ?_⟩
  · rw [f1]
    refine ⟨h1, fun i k vals hk => ?_⟩
    obtain ⟨a, ha, hv⟩ := h2 i k vals hk
    obtain ⟨b, hb, hs⟩ := array_becomes (ft := ft) (h _ (List.mem_of_getElem? hk))
    rw [hv] at hb
    cases hb
    exact ⟨a, ha, hs⟩
  · rw [f1]
    constructor
    · intro hh x hx
      obtain ⟨i, hi⟩ := List.getElem?_of_mem hx
      obtain ⟨a, ha, hs⟩ := hh.2 i x.1 x.2 hi
      obtain ⟨b, hb, hv⟩ := h2 i x.1 x.2 hi
      rw [ha] at hb
      cases hb
      exact (C92_exact ft x.2).1 ⟨a, hv, hs⟩
    · intro hc
      refine ⟨h1, fun i k vals hk => ?_⟩
      obtain ⟨a, ha, hv⟩ := h2 i k vals hk
      obtain ⟨b, hb, hs⟩ := (C92_exact ft vals).2 (hc _ (List.mem_of_getElem? hk))
      rw [hv] at hb
      cases hb
      exact ⟨a, ha, hs⟩

theorem pure_compatible {vals : List Val} (h : PureColumn vals) :
    Compatible vals ↔ (∀ v ∈ vals, ¬ EndsNul v) ∧ (Rounds vals → ∀ i : Int, .int i ∈ vals → IsDouble i) := by
  constructor
  · rintro (⟨v, hv, hvo⟩ | hc | hc | ⟨hc, hd⟩)
    · refine ⟨fun w hw hn => ?_, fun hr => absurd (hr.1 v hv) hvo.1⟩
      rcases h with h | h | h | h
      · rcases h w hw with (⟨q, rfl⟩ | rfl | ⟨n, rfl⟩) | ⟨i, rfl⟩ <;> exact hn
      · obtain ⟨s, rfl⟩ := h v hv; exact hvo.2.1 s rfl
      · obtain ⟨s, rfl⟩ := h v hv; exact hvo.2.2 s rfl
      · rcases h w hw with rfl | ⟨y, m, d, rfl⟩ <;> exact hn
    · refine ⟨fun w hw hn => ?_, fun hr i hi => ?_⟩
      · obtain ⟨s, rfl, hs⟩ := hc w hw
        exact hs hn
      · obtain ⟨s, hs, -⟩ := hc _ hi; cases hs
    · refine ⟨fun w hw hn => ?_, fun hr i hi => ?_⟩
      · obtain ⟨s, rfl, hs⟩ := hc w hw
        exact hs hn
      · obtain ⟨s, hs, -⟩ := hc _ hi; cases hs
    · exact ⟨fun w hw hn => by cases hc w hw <;> exact hn, fun hr => hd hr.2⟩
  · rintro ⟨hn, hd⟩
    rcases h with h | h | h | h
    · by_cases ho : ∃ v ∈ vals, IsObject v
      · exact .inl ho
      · have hall : ∀ v ∈ vals, NpNumber v := by
          intro v hv
          refine Classical.byContradiction fun hc => ho ⟨v, hv, hc, ?_, ?_⟩
          · rintro s rfl
            rcases h _ hv with (⟨q, h⟩ | h | ⟨n, h⟩) | ⟨i, h⟩ <;> cases h
          · rintro s rfl
            rcases h _ hv with (⟨q, h⟩ | h | ⟨n, h⟩) | ⟨i, h⟩ <;> cases h
        exact .inr (.inr (.inr ⟨hall, fun hf => hd ⟨hall, hf⟩⟩))
    · exact compatible_strs h hn
    · exact compatible_bytes h hn
    · exact compatible_dates h

/-- C93, exactly: whenever `textpack` reads a file (no converters), there is a pack, and its channels are the values read but for the NULs
at the end of text; so they are these values if and only if no text ends with a NUL. -/
theorem C93_exact (ft : Rat → List Char) (dec : Char → Option Nat) (h : Hint) (f : TFile) (a : TextArgs) (data : List (Int × List Val))
    (names : List (Int × Val)) (hok : textpack (h.float dec) h f a = .ok (data, names)) (hc : a.converters = []) (hd : a.debug = false) :
    ∃ p, packOfLists ft data names = .ok p ∧ p.names = names ∧ ChannelsBecome data p.data ∧
      (∀ x ∈ data, ∀ i : Int, .int i ∉ x.2) ∧
      (ChannelsHold data p.data ↔ ∀ x ∈ data, ∀ v ∈ x.2, ¬ EndsNul v) := by
  have hk := C93_kinds hok hc hd
  have hni : ∀ x ∈ data, ∀ i : Int, .int i ∉ x.2 := by
    intro x hx i hi
    rcases hk x hx with h | h | h
    · rcases h _ hi with ⟨q, h⟩ | h | ⟨n, h⟩ <;> cases h
    · obtain ⟨s, h⟩ := h _ hi; cases h
    · obtain ⟨s, h⟩ := h _ hi; cases h
  have hp : ∀ x ∈ data, PureColumn x.2 := by
    intro x hx
    rcases hk x hx with h | h | h
    · exact .inl fun v hv => .inl (h v hv)
    · exact .inr (.inl h)
    · exact .inr (.inr (.inl h))
  obtain ⟨p, h1, h2, h3, h4⟩ := pack_becomes ft names hp
  refine ⟨p, h1, h2, h3, hni, h4.trans ⟨fun h x hx => ((pure_compatible (hp x hx)).1 (h x hx)).1, fun h x hx => ?_⟩⟩
  exact (pure_compatible (hp x hx)).2 ⟨h x hx, fun _ i hi => absurd hi (hni x hx i)⟩

/-- C94, exactly: whenever `dbfpack` reads a file, there is a pack, and its channels are the values read but for the NULs at the end of text
and the rounding of integers that stand beside a missing number (or have no type of integers in common), all of 64 bits; so they are these
values if and only if no text ends with a NUL and the integers so rounded are floats. -/
theorem C94_exact (ft : Rat → List Char) (f : BFile) (names : List (List Char)) (data : List (Int × List Val))
    (chnames : List (Int × List Char)) (hok : dbfpack floatBytes f names = .ok (data, chnames)) :
    ∃ p, packOfLists ft data (chnames.map fun c => (c.1, .str c.2)) = .ok p ∧ p.names = chnames.map (fun c => (c.1, .str c.2)) ∧
      ChannelsBecome data p.data ∧
      (ChannelsHold data p.data ↔
        ∀ x ∈ data, (∀ v ∈ x.2, ¬ EndsNul v) ∧ (Rounds x.2 → ∀ i : Int, .int i ∈ x.2 → IsDouble i)) := by
  have hp : ∀ x ∈ data, PureColumn x.2 := by
    intro x hx
    obtain ⟨typ, deci, hv⟩ := C94_kinds hok x hx
    unfold FieldValue at hv
    split at hv
    · exact .inl fun v hm => (hv v hm).elim (fun h => .inl (.inr (.inl h))) .inr
    · split at hv
      · exact .inl fun v hm => .inl (hv v hm)
      · split at hv
        · exact .inr (.inr (.inr hv))
        · exact .inr (.inl hv)
  obtain ⟨p, h1, h2, h3, h4⟩ := pack_becomes ft _ hp
  exact ⟨p, h1, h2, h3, h4.trans ⟨fun h x hx => (pure_compatible (hp x hx)).1 (h x hx), fun h x hx => (pure_compatible (hp x hx)).2 (h x hx)⟩⟩

/-- What a value becomes is one value. -/
theorem becomes_unique {vals : List Val} {v w w' : Val} (h : Becomes vals v w) (h' : Becomes vals v w') : w = w' := by
  have key : ∀ {α : Type} [DecidableEq α] {nul : α} {s t t' : List α} {n n' : Nat}, s = t ++ List.replicate n nul → t.getLast? ≠ some nul →
      s = t' ++ List.replicate n' nul → t'.getLast? ≠ some nul → t = t' := by
    intro α _ nul s t t' n n' h1 h2 h3 h4
    have hd : ∀ {t : List α} {n : Nat}, t.getLast? ≠ some nul → dropNuls nul (t ++ List.replicate n nul) = t := by
      intro t n ht
      have h5 : dropNuls nul (t ++ List.replicate n nul) = dropNuls nul t := by
        unfold dropNuls
        rw [List.reverse_append, List.reverse_replicate, List.dropWhile_append]
        simp
      rw [h5]
      exact dropNuls_same.2 ht
    rw [← hd (n := n) h2, ← h1, h3, hd h4]
  unfold Becomes at h h'
  split at h
  · obtain ⟨t, n, h1, h2, rfl⟩ := h
    obtain ⟨t', n', h3, h4, rfl⟩ := h'
    rw [key h1 h2 h3 h4]
  · obtain ⟨t, n, h1, h2, rfl⟩ := h
    obtain ⟨t', n', h3, h4, rfl⟩ := h'
    rw [key h1 h2 h3 h4]
  · by_cases hr : Rounds vals
    · obtain ⟨y, h1, rfl⟩ := h.1 hr
      obtain ⟨y', h3, rfl⟩ := h'.1 hr
      rw [nearestDouble_unique h1 h3]
    · rw [h.2 hr, h'.2 hr]
  · split at h'
    all_goals first | (rw [h, h']; done) | (exfalso; simp_all)

/-- C93_exact: a file where text loses a NUL. -/
example : ∃ p, packOfLists (fun _ => []) [(0, [.str "a\x00".toList]), (1, [.flt 1])] [] = .ok p ∧
    ¬ ChannelsHold [(0, [.str "a\x00".toList]), (1, [.flt 1])] p.data := by
  have he : textpack ((Hint.text).float asciiDec) .text ⟨"a\x00,1\n".toList, 0⟩ { delimiter := some [','] } =
      .ok ([(0, [.str "a\x00".toList]), (1, [.flt 1])], []) := by decide +kernel
  obtain ⟨p, h1, -, -, -, h2⟩ := C93_exact (fun _ => []) asciiDec .text _ _ _ _ he rfl rfl
  refine ⟨p, h1, fun h => ?_⟩
  exact h2.1 h _ (List.mem_cons_self ..) _ (List.mem_cons_self ..) rfl

/-- C94_exact: the file of the counterexample, where an integer is rounded. -/
example := C94_exact (fun _ => []) ⟨bigDbf, 0⟩ [] [(0, [.int 9007199254740993, .nan])] [(0, ['A'])] (by decide +kernel)

end CP
