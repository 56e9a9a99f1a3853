import Mathlib.Dynamics.PeriodicPts.Lemmas
import Mathlib.Data.List.Iterate
import Verif.Spec.Iter
import Verif.Proofs.Steps

/-!
# Iterators: circular lists, depth first search
-/

namespace Tet
open Spec

/-! ## Sequences of calls -/

theorem Spec.Yields.nil {σ α : Type} {next : σ → Option (Option α × σ)} {s : σ}
    (h : next s = some (none, s)) : Yields next s [] := by
  intro n
  refine ⟨s, ?_⟩
  induction n with
  | zero => rfl
  | succ n ih =>
    rw [calls, h]
    simp only [Option.bind_eq_bind, Option.bind_some, ih, List.range_succ_eq_map]
    simp [Function.comp_def]

theorem Spec.Yields.nil' {σ α : Type} {next : σ → Option (Option α × σ)} {s s' : σ}
    (h : next s = some (none, s')) (h' : Yields next s' []) : Yields next s [] := by
  intro n
  cases n with
  | zero => exact ⟨s, rfl⟩
  | succ n =>
    obtain ⟨s'', h''⟩ := h' n
    refine ⟨s'', ?_⟩
    rw [calls, h]
    simp only [Option.bind_eq_bind, Option.bind_some, h'', List.range_succ_eq_map]
    simp [Function.comp_def]

theorem Spec.Yields.cons {σ α : Type} {next : σ → Option (Option α × σ)} {s s' : σ} {a : α} {l : List α}
    (h : next s = some (some a, s')) (h' : Yields next s' l) : Yields next s (a :: l) := by
  intro n
  cases n with
  | zero => exact ⟨s, rfl⟩
  | succ n =>
    obtain ⟨s'', h''⟩ := h' n
    refine ⟨s'', ?_⟩
    rw [calls, h]
    simp only [Option.bind_eq_bind, Option.bind_some, h'', List.range_succ_eq_map]
    simp [Function.comp_def]

theorem Spec.Yields.map {σ α β : Type} {next : σ → Option (Option α × σ)}
    {next' : σ → Option (Option β × σ)} {s : σ} {f : α → β}
    (hf : ∀ s a s', next s = some (a, s') → next' s = some (a.map f, s')) {l : List α} (h : Yields next s l) :
    Yields next' s (l.map f) := by
  have key : ∀ n s as s', calls next n s = some (as, s') →
      calls next' n s = some (as.map (·.map f), s') := by
    intro n
    induction n with
    | zero => intro s as s' h; simp only [calls, Option.some.injEq, Prod.mk.injEq] at h ⊢; simp [← h.1, h.2]
    | succ n ih =>
      intro s as s' h
      rw [calls] at h
      obtain ⟨⟨a, s1⟩, h1, h⟩ := Option.bind_eq_some_iff.1 h
      obtain ⟨⟨as', s2⟩, h2, h⟩ := Option.bind_eq_some_iff.1 h
      cases h
      rw [calls, hf _ _ _ h1]
      simp [ih _ _ _ h2]
  intro n
  obtain ⟨s', h'⟩ := h n
  exact ⟨s', by rw [key _ _ _ _ h']; simp⟩

/-! ## Circular lists -/

theorem circ_yields {K W : Type} [DecidableEq K] (valueFn : K → Option W) (nextFn : K → Option K)
    (val : K → W) (a : K) : ∀ (k : K) (l : List K),
    List.IsChain (fun x y => nextFn x = some y) (k :: l ++ [a]) → a ∉ l →
    (∀ x ∈ k :: l, valueFn x = some (val x)) →
    Yields (CircIter.next valueFn nextFn) ⟨a, k, false⟩ ((k :: l).map fun x => (x, val x))
  | k, [], hc, _, hv => by
    refine Yields.cons (s' := ⟨a, a, true⟩) ?_ (Yields.nil (by simp [CircIter.next]))
    have : nextFn k = some a := by simpa using hc
    simp [CircIter.next, hv k (by simp), this]
  | k, b :: l, hc, ha, hv => by
    have hb : nextFn k = some b ∧ List.IsChain (fun x y => nextFn x = some y) (b :: l ++ [a]) := by
      simpa using hc
    refine Yields.cons (s' := ⟨a, b, false⟩) ?_
      (circ_yields valueFn nextFn val a b l hb.2 (fun h => ha (by simp [h])) fun x hx => hv x (by simp [hx]))
    have : b ≠ a := fun h => ha (by simp [h])
    simp [CircIter.next, hv k (by simp), hb.1, this]

/-- A finite set on which `next` is an injective map is a union of cycles. -/
theorem exists_runsThrough {K : Type} {next : K → Option K} {S : Set K} (hfin : S.Finite)
    (hnext : ∀ x ∈ S, ∃ y ∈ S, next x = some y)
    (hinj : ∀ x ∈ S, ∀ y ∈ S, next x = next y → x = y) {a : K} (ha : a ∈ S) :
    ∃ l, RunsThrough next a l ∧ (a :: l).Nodup ∧ ∀ x ∈ l, x ∈ S := by
  classical
  choose! g hg using hnext
  let f : S → S := fun x => ⟨g x, (hg x x.2).1⟩
  have hf : Function.Injective f := by
    intro x y h
    have : g x = g y := congrArg Subtype.val h
    apply Subtype.ext
    apply hinj _ x.2 _ y.2
    rw [(hg x x.2).2, (hg y y.2).2, this]
  haveI : Finite S := hfin
  have hper := hf.mem_periodicPts ⟨a, ha⟩
  have hpos := Function.minimalPeriod_pos_of_mem_periodicPts hper
  set n := Function.minimalPeriod f ⟨a, ha⟩ with hn
  obtain ⟨k, hk⟩ : ∃ k, n = k + 1 := ⟨n - 1, by omega⟩
  have hl : (List.range n).map (fun i => ((f^[i]) ⟨a, ha⟩ : S).1) =
      a :: (List.range k).map (fun i => ((f^[i+1]) ⟨a, ha⟩ : S).1) := by
    rw [hk, List.range_succ_eq_map]
    simp [Function.comp_def]
  refine ⟨(List.range k).map (fun i => ((f^[i+1]) ⟨a, ha⟩ : S).1), ?_, ?_, ?_⟩
  · have e : a :: (List.range k).map (fun i => ((f^[i+1]) ⟨a, ha⟩ : S).1) ++ [a] =
        (List.range (n + 1)).map (fun i => ((f^[i]) ⟨a, ha⟩ : S).1) := by
      rw [List.range_succ, List.map_append, hl]
      simp only [List.map_cons, List.map_nil]
      rw [hn, Function.iterate_minimalPeriod]
    rw [RunsThrough, e, List.isChain_iff_getElem]
    intro i hi
    simp only [List.getElem_map, List.getElem_range, Function.iterate_succ_apply']
    exact (hg _ (f^[i] ⟨a, ha⟩).2).2
  · rw [← hl]
    refine List.Nodup.map_on ?_ List.nodup_range
    intro i hi j hj h
    exact Function.iterate_injOn_Iio_minimalPeriod (List.mem_range.1 hi) (List.mem_range.1 hj)
      (Subtype.ext h)
  · intro x hx
    obtain ⟨i, -, rfl⟩ := List.mem_map.1 hx
    exact Subtype.prop _

theorem Spec.RunsThrough.succ {K : Type} {next : K → Option K} {a : K} {l : List K}
    (h : RunsThrough next a l) {x : K} (hx : x ∈ a :: l) : ∃ y ∈ a :: l, next x = some y := by
  rw [RunsThrough, List.isChain_iff_getElem] at h
  obtain ⟨i, hi, rfl⟩ := List.getElem_of_mem hx
  have := h i (by simp at hi ⊢; omega)
  have hlen : (a :: l).length = l.length + 1 := by simp
  rw [List.getElem_append_left hi] at this
  by_cases hl : i + 1 < (a :: l).length
  · rw [List.getElem_append_left hl] at this
    exact ⟨_, List.getElem_mem _, this⟩
  · rw [List.getElem_append_right (by omega)] at this
    exact ⟨a, by simp, by simpa using this⟩

theorem Spec.RunsThrough.pred {K : Type} {next : K → Option K} {a : K} {l : List K}
    (h : RunsThrough next a l) {y : K} (hy : y ∈ a :: l) : ∃ x ∈ a :: l, next x = some y := by
  rw [RunsThrough, List.isChain_iff_getElem] at h
  obtain ⟨i, hi, rfl⟩ := List.getElem_of_mem hy
  have hlen : (a :: l).length = l.length + 1 := by simp
  have hlen' : (a :: l ++ [a]).length = l.length + 2 := by simp
  rcases Nat.eq_zero_or_pos i with rfl | hpos
  · have := h l.length (by omega)
    rw [List.getElem_append_left (by omega), List.getElem_append_right (by omega)] at this
    exact ⟨_, List.getElem_mem _, by simpa using this⟩
  · obtain ⟨j, rfl⟩ : ∃ j, i = j + 1 := ⟨i - 1, by omega⟩
    have := h j (by omega)
    rw [List.getElem_append_left (by omega), List.getElem_append_left hi] at this
    exact ⟨_, List.getElem_mem _, this⟩

/-! ## Depth first search -/

/-- The search common to the traversals. -/
def dfsNext {K W : Type} [DecidableEq K] (key : W → Option K) (succ : W → Option (List W))
    (visited : List K) : List W → Option (Option W × (List K × List W))
  | [] => some (none, (visited, []))
  | w :: rest => do
    let k ← key w
    if k ∈ visited then dfsNext key succ visited rest
    else
      let l ← succ w
      return (some w, (k :: visited, l ++ rest))

section dfs
variable {K W : Type} [DecidableEq K] {key : W → Option K} {succ : W → Option (List W)}

theorem dfsNext_cases {visited : List K} {G : W → Prop} (hkey : ∀ w, G w → ∃ k, key w = some k)
    (hsucc : ∀ w, G w → ∃ l, succ w = some l ∧ ∀ x ∈ l, G x) : ∀ stack : List W, (∀ w ∈ stack, G w) →
    (dfsNext key succ visited stack = some (none, (visited, [])) ∧
      ∀ w ∈ stack, ∃ k ∈ visited, key w = some k) ∨
    ∃ w k l rest, dfsNext key succ visited stack = some (some w, (k :: visited, l ++ rest)) ∧
      w ∈ stack ∧ G w ∧ key w = some k ∧ k ∉ visited ∧ succ w = some l ∧ (∀ x ∈ l, G x) ∧
      (∀ x ∈ rest, G x ∧ x ∈ stack) ∧ ∀ x ∈ stack, x ∈ rest ∨ x = w ∨ ∃ k ∈ visited, key x = some k
  | [], _ => .inl ⟨rfl, by simp⟩
  | w :: stack, hG => by
    obtain ⟨k, hk⟩ := hkey w (hG w (by simp))
    by_cases hv : k ∈ visited
    · have e : dfsNext key succ visited (w :: stack) = dfsNext key succ visited stack := by
        simp [dfsNext, hk, hv]
      rw [e]
      rcases dfsNext_cases hkey hsucc stack (fun x hx => hG x (by simp [hx])) with h | h
      · left
        refine ⟨h.1, ?_⟩
        intro x hx
        rcases List.mem_cons.1 hx with rfl | hx
        · exact ⟨k, hv, hk⟩
        · exact h.2 x hx
      · right
        obtain ⟨w', k', l, rest, h1, h2, h3, h4, h5, h6, h7, h8, h9⟩ := h
        refine ⟨w', k', l, rest, h1, by simp [h2], h3, h4, h5, h6, h7,
          fun x hx => ⟨(h8 x hx).1, by simp [(h8 x hx).2]⟩, ?_⟩
        intro x hx
        rcases List.mem_cons.1 hx with rfl | hx
        · exact .inr (.inr ⟨k, hv, hk⟩)
        · exact h9 x hx
    · right
      obtain ⟨l, hl, hlG⟩ := hsucc w (hG w (by simp))
      refine ⟨w, k, l, stack, by simp [dfsNext, hk, hv, hl], by simp, hG w (by simp), hk, hv, hl, hlG,
        fun x hx => ⟨hG x (by simp [hx]), by simp [hx]⟩, ?_⟩
      intro x hx
      rcases List.mem_cons.1 hx with rfl | hx
      · exact .inr (.inl rfl)
      · exact .inl hx

/-- The search visits every key once, and what it has visited is closed under `succ`. -/
theorem dfs_yields {G : W → Prop} {F : Finset K} (hkey : ∀ w, G w → ∃ k ∈ F, key w = some k)
    (hsucc : ∀ w, G w → ∃ l, succ w = some l ∧ ∀ x ∈ l, G x) : ∀ (n : Nat) (visited : List K)
    (stack : List W), (F.filter (· ∉ visited)).card ≤ n → (∀ w ∈ stack, G w) →
    ∃ ws, Yields (fun s => dfsNext key succ s.1 s.2) (visited, stack) ws ∧ (∀ w ∈ ws, G w) ∧
      ws.Pairwise (fun w w' => key w ≠ key w') ∧
      (∀ w ∈ ws, ∀ k ∈ visited, key w ≠ some k) ∧
      (∀ x ∈ stack, (∃ w ∈ ws, key w = key x) ∨ ∃ k ∈ visited, key x = some k) ∧
      ∀ w ∈ ws, ∀ l, succ w = some l → ∀ x ∈ l, (∃ w ∈ ws, key w = key x) ∨ ∃ k ∈ visited, key x = some k := by
  intro n
  have hkey' : ∀ w, G w → ∃ k, key w = some k := fun w hw => (hkey w hw).imp fun _ h => h.2
  have none_case : ∀ (visited : List K) (stack : List W),
      dfsNext key succ visited stack = some (none, (visited, [])) →
      (∀ w ∈ stack, ∃ k ∈ visited, key w = some k) →
      ∃ ws, Yields (fun s => dfsNext key succ s.1 s.2) (visited, stack) ws ∧ (∀ w ∈ ws, G w) ∧
      ws.Pairwise (fun w w' => key w ≠ key w') ∧
      (∀ w ∈ ws, ∀ k ∈ visited, key w ≠ some k) ∧
      (∀ x ∈ stack, (∃ w ∈ ws, key w = key x) ∨ ∃ k ∈ visited, key x = some k) ∧
      ∀ w ∈ ws, ∀ l, succ w = some l → ∀ x ∈ l, (∃ w ∈ ws, key w = key x) ∨ ∃ k ∈ visited, key x = some k := by
    intro visited stack h1 h2
    exact ⟨[], Yields.nil' h1 (Yields.nil rfl), by simp, by simp, by simp, fun x hx => .inr (h2 x hx), by simp⟩
  induction n with
  | zero =>
    intro visited stack hn hG
    rcases dfsNext_cases (visited := visited) hkey' hsucc stack hG with h | ⟨w, k, l, rest, h1, h2, h3, h4, h5, -⟩
    · exact none_case _ _ h.1 h.2
    · exfalso
      obtain ⟨k', hk', h6⟩ := hkey w h3
      rw [h4] at h6
      cases h6
      have : k ∈ F.filter (· ∉ visited) := by simp [hk', h5]
      rw [Nat.le_zero, Finset.card_eq_zero] at hn
      simp [hn] at this
  | succ n ih =>
    intro visited stack hn hG
    rcases dfsNext_cases (visited := visited) hkey' hsucc stack hG with h | ⟨w, k, l, rest, h1, h2, h3, h4, h5, h6, h7, h8, h9⟩
    · exact none_case _ _ h.1 h.2
    · have hk : k ∈ F := by
        obtain ⟨k', hk', h⟩ := hkey w h3
        rw [h4] at h
        cases h
        exact hk'
      have hcard : (F.filter (· ∉ k :: visited)).card ≤ n := by
        have : F.filter (· ∉ k :: visited) ⊂ F.filter (· ∉ visited) := by
          refine Finset.ssubset_iff_of_subset ?_ |>.2 ⟨k, by simp [hk, h5], by simp⟩
          intro x hx
          simp only [Finset.mem_filter, List.mem_cons, not_or] at hx ⊢
          exact ⟨hx.1, hx.2.2⟩
        have := Finset.card_lt_card this
        omega
      have hG' : ∀ x ∈ l ++ rest, G x := by
        intro x hx
        rcases List.mem_append.1 hx with hx | hx
        · exact h7 x hx
        · exact (h8 x hx).1
      obtain ⟨ws, q1, q2, q3, q4, q5, q6⟩ := ih (k :: visited) (l ++ rest) hcard hG'
      have lift : ∀ x, ((∃ w ∈ ws, key w = key x) ∨ ∃ k' ∈ k :: visited, key x = some k') →
          (∃ w' ∈ w :: ws, key w' = key x) ∨ ∃ k ∈ visited, key x = some k := by
        rintro x (⟨w', hw', h⟩ | ⟨k', hk', h⟩)
        · exact .inl ⟨w', by simp [hw'], h⟩
        · rcases List.mem_cons.1 hk' with rfl | hk'
          · exact .inl ⟨w, by simp, by rw [h4, h]⟩
          · exact .inr ⟨k', hk', h⟩
      refine ⟨w :: ws, Yields.cons h1 q1, ?_, ?_, ?_, ?_, ?_⟩
      · intro x hx
        rcases List.mem_cons.1 hx with rfl | hx
        · exact h3
        · exact q2 x hx
      · refine List.pairwise_cons.2 ⟨fun x hx => ?_, q3⟩
        rw [h4]
        exact (q4 x hx k (by simp)).symm
      · intro x hx k' hk'
        rcases List.mem_cons.1 hx with rfl | hx
        · rw [h4]
          rintro h
          cases h
          exact h5 hk'
        · exact q4 x hx k' (by simp [hk'])
      · intro x hx
        rcases h9 x hx with h | rfl | h
        · exact lift x (q5 x (by simp [h]))
        · exact .inl ⟨x, by simp, rfl⟩
        · exact .inr h
      · intro x hx l' hl' y hy
        rcases List.mem_cons.1 hx with rfl | hx
        · rw [h6] at hl'
          cases hl'
          exact lift y (q5 y (by simp [hy]))
        · exact lift y (q6 x hx l' hl' y hy)

end dfs

end Tet
