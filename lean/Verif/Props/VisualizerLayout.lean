import Verif.Lemmas.VisualizerLayout
import Verif.Props.Visualizer
import Mathlib.Algebra.Order.Field.Rat
import Mathlib.Data.Rat.Floor
import Mathlib.Tactic.NormNum

/-! # The layout of the picture: properties -/

set_option linter.unusedSectionVars false

namespace Knp.Props
open Knp Knp.Spec Knp.Vis

section
variable {F : Type} [Field F] [LinearOrder F] [IsStrictOrderedRing F] [FloorRing F]

/-! ## C148: the picture fits the window -/

/-- All points are inside the margins of the window. -/
def Inside (width height margin : Int) (pts : List (Int × Int)) : Prop :=
  ∀ q ∈ pts, margin ≤ q.1 ∧ q.1 ≤ width - margin ∧ margin ≤ q.2 ∧ q.2 ≤ height - margin

/-- All points moved. -/
def shift (dx dy : F) (pts : List (Point F)) : List (Point F) := pts.map (fun q => ⟨q.x + dx, q.y + dy, q.vx, q.vy⟩)

/-- Coordinates are numbers that `double` has. -/
def Below (c : Limits F) (pts : List (Point F)) : Prop := ∀ q ∈ pts, q.x ≤ c.big ∧ q.y ≤ c.big

/-- Some point is on the positive side, in either direction. -/
def Positive (c : Limits F) (pts : List (Point F)) : Prop := (∃ q ∈ pts, c.tiny ≤ q.x) ∧ ∃ q ∈ pts, c.tiny ≤ q.y

/-- **C148.**  The points of the picture lie inside the margins, and where they lie depends on their positions relative to each other only. -/
def C148_statement : Prop :=
  ∀ (F : Type) [Field F] [LinearOrder F] [IsStrictOrderedRing F] [FloorRing F] (c : Limits F), 0 < c.small → 0 < c.tiny →
    ∀ width height margin : Int, 2 * margin ≤ width → 2 * margin ≤ height → ∀ pts : List (Point F), Below c pts →
      Inside width height margin (scaleGraph c width height margin pts) ∧
        ∀ dx dy, Below c (shift dx dy pts) → scaleGraph c width height margin (shift dx dy pts) = scaleGraph c width height margin pts

theorem scaleOf_nonneg (c : Limits F) (hc : 0 < c.small) (width height margin : Int) (hw : 2 * margin ≤ width) (hh : 2 * margin ≤ height)
    (pts : List (Point F)) (q : Point F) (hq : q ∈ pts) : 0 ≤ scaleOf c width height margin pts := by
  unfold scaleOf lowest highest
  have h1 := (foldl_min_le (pts.map (·.x)) c.big).2 q.x (List.mem_map_of_mem hq)
  have h2 := (le_foldl_max (pts.map (·.x)) c.tiny).2 q.x (List.mem_map_of_mem hq)
  have h3 := (foldl_min_le (pts.map (·.y)) c.big).2 q.y (List.mem_map_of_mem hq)
  have h4 := (le_foldl_max (pts.map (·.y)) c.tiny).2 q.y (List.mem_map_of_mem hq)
  refine le_min (div_nonneg ?_ (by linarith)) (div_nonneg ?_ (by linarith))
  · exact_mod_cast (by omega : (0 : Int) ≤ width - 2 * margin)
  · exact_mod_cast (by omega : (0 : Int) ≤ height - 2 * margin)

/-- Whatever the positions are, all points are inside the margins. -/
theorem C148_inside (c : Limits F) (hc : 0 < c.small) (width height margin : Int) (hw : 2 * margin ≤ width) (hh : 2 * margin ≤ height)
    (pts : List (Point F)) : Inside width height margin (scaleGraph c width height margin pts) ∧
      (scaleGraph c width height margin pts).length = pts.length := by
  refine ⟨?_, by unfold scaleGraph; simp⟩
  intro r hr
  unfold scaleGraph at hr
  obtain ⟨q, hq, rfl⟩ := List.mem_map.1 hr
  have h0 := scaleOf_nonneg c hc width height margin hw hh pts q hq
  have hx : scaleOf c width height margin pts ≤ _ := min_le_left _ _
  have hy : scaleOf c width height margin pts ≤ _ := min_le_right _ _
  have lx : lowest c (pts.map (·.x)) ≤ q.x := (foldl_min_le _ c.big).2 q.x (List.mem_map_of_mem (f := fun r : Point F => r.x) hq)
  have gx : q.x ≤ highest c (pts.map (·.x)) := (le_foldl_max _ c.tiny).2 q.x (List.mem_map_of_mem (f := fun r : Point F => r.x) hq)
  have ly : lowest c (pts.map (·.y)) ≤ q.y := (foldl_min_le _ c.big).2 q.y (List.mem_map_of_mem (f := fun r : Point F => r.y) hq)
  have gy : q.y ≤ highest c (pts.map (·.y)) := (le_foldl_max _ c.tiny).2 q.y (List.mem_map_of_mem (f := fun r : Point F => r.y) hq)
  have bx := scaled_bounds _ _ q.x c.small _ (width - 2 * margin) lx gx hc (by omega) h0 hx
  have by' := scaled_bounds _ _ q.y c.small _ (height - 2 * margin) ly gy hc (by omega) h0 hy
  have rx := lround_bounds _ _ bx.1 bx.2
  have ry := lround_bounds _ _ by'.1 by'.2
  simp only
  refine ⟨?_, ?_, ?_, ?_⟩ <;> omega

theorem lowest_shift (c : Limits F) (xs : List F) (d : F) (hne : xs ≠ []) (h1 : ∀ x ∈ xs, x ≤ c.big) (h2 : ∀ x ∈ xs, x + d ≤ c.big) :
    lowest c (xs.map (· + d)) = lowest c xs + d := by
  have key : ∀ ys : List F, ys ≠ [] → (∀ y ∈ ys, y ≤ c.big) → lowest c ys ∈ ys := by
    intro ys hn hb
    rcases foldl_min_mem ys c.big with h | h
    · obtain ⟨y, hy⟩ := List.exists_mem_of_ne_nil ys hn
      have e : lowest c ys = y := le_antisymm ((foldl_min_le ys c.big).2 y hy) (by rw [show lowest c ys = c.big from h]; exact hb y hy)
      rw [e]; exact hy
    · exact h
  apply le_antisymm
  · exact (foldl_min_le (xs.map (· + d)) c.big).2 _ (List.mem_map_of_mem (key xs hne h1))
  · obtain ⟨x, hx, he⟩ := List.mem_map.1 (key (xs.map (· + d)) (by simpa using hne) (by
      intro y hy; obtain ⟨x, hx, rfl⟩ := List.mem_map.1 hy; exact h2 x hx))
    rw [← he]
    have := (foldl_min_le xs c.big).2 x hx
    unfold lowest
    linarith

/-- The largest of some numbers one of which is positive. -/
theorem highest_mem (c : Limits F) (ys : List F) (h : ∃ y ∈ ys, c.tiny ≤ y) : highest c ys ∈ ys := by
  obtain ⟨y, hy, hty⟩ := h
  rcases foldl_max_mem ys c.tiny with h | h
  · have e : highest c ys = y := le_antisymm (by rw [show highest c ys = c.tiny from h]; exact hty) ((le_foldl_max ys c.tiny).2 y hy)
    rw [e]; exact hy
  · exact h

theorem highest_shift (c : Limits F) (xs : List F) (d : F) (h1 : ∃ x ∈ xs, c.tiny ≤ x) (h2 : ∃ x ∈ xs, c.tiny ≤ x + d) :
    highest c (xs.map (· + d)) = highest c xs + d := by
  obtain ⟨x2, hx2, ht2⟩ := h2
  apply le_antisymm
  · obtain ⟨x, hx, he⟩ := List.mem_map.1 (highest_mem c (xs.map (· + d)) ⟨x2 + d, List.mem_map_of_mem hx2, ht2⟩)
    rw [← he]
    have := (le_foldl_max xs c.tiny).2 x hx
    unfold highest
    linarith
  · exact (le_foldl_max (xs.map (· + d)) c.tiny).2 _ (List.mem_map_of_mem (highest_mem c xs h1))

/-- Only differences matter while some points are on the positive side. -/
theorem C148_fits_partial (c : Limits F) (hc : 0 < c.small) (width height margin : Int) (hw : 2 * margin ≤ width) (hh : 2 * margin ≤ height)
    (pts : List (Point F)) (hb : Below c pts) (hp : Positive c pts) :
    Inside width height margin (scaleGraph c width height margin pts) ∧
      ∀ dx dy, Below c (shift dx dy pts) → Positive c (shift dx dy pts) →
        scaleGraph c width height margin (shift dx dy pts) = scaleGraph c width height margin pts := by
  refine ⟨(C148_inside c hc width height margin hw hh pts).1, ?_⟩
  intro dx dy hb' hp'
  have hne : pts ≠ [] := by obtain ⟨⟨q, hq, _⟩, _⟩ := hp; intro h; rw [h] at hq; cases hq
  have ex : (shift dx dy pts).map (·.x) = (pts.map (·.x)).map (· + dx) := by unfold shift; simp [Function.comp_def]
  have ey : (shift dx dy pts).map (·.y) = (pts.map (·.y)).map (· + dy) := by unfold shift; simp [Function.comp_def]
  have hb2 : ∀ q ∈ pts, q.x + dx ≤ c.big ∧ q.y + dy ≤ c.big := fun q hq => hb' ⟨q.x + dx, q.y + dy, q.vx, q.vy⟩ (List.mem_map.2 ⟨q, hq, rfl⟩)
  have hp2 : (∃ q ∈ pts, c.tiny ≤ q.x + dx) ∧ ∃ q ∈ pts, c.tiny ≤ q.y + dy := by
    obtain ⟨⟨a, ha, h1⟩, ⟨b, hb, h2⟩⟩ := hp'
    obtain ⟨q, hq, rfl⟩ := List.mem_map.1 ha
    obtain ⟨r, hr, rfl⟩ := List.mem_map.1 hb
    exact ⟨⟨q, hq, h1⟩, ⟨r, hr, h2⟩⟩
  have hall : ∀ (g : Point F → F) (p : F → Prop), (∀ q ∈ pts, p (g q)) → ∀ x ∈ pts.map g, p x := by
    intro g p h x hx; obtain ⟨q, hq, rfl⟩ := List.mem_map.1 hx; exact h q hq
  have hex : ∀ (g : Point F → F) (p : F → Prop), (∃ q ∈ pts, p (g q)) → ∃ x ∈ pts.map g, p x := by
    rintro g p ⟨q, hq, h⟩; exact ⟨g q, List.mem_map_of_mem hq, h⟩
  have lx := lowest_shift c (pts.map (·.x)) dx (by simpa using hne) (hall _ _ fun q hq => (hb q hq).1) (hall (·.x) (fun x => x + dx ≤ c.big) fun q hq => (hb2 q hq).1)
  have ly := lowest_shift c (pts.map (·.y)) dy (by simpa using hne) (hall _ _ fun q hq => (hb q hq).2) (hall (·.y) (fun x => x + dy ≤ c.big) fun q hq => (hb2 q hq).2)
  have gx := highest_shift c (pts.map (·.x)) dx (hex _ _ hp.1) (hex (·.x) (fun x => c.tiny ≤ x + dx) hp2.1)
  have gy := highest_shift c (pts.map (·.y)) dy (hex _ _ hp.2) (hex (·.y) (fun x => c.tiny ≤ x + dy) hp2.2)
  have hs : scaleOf c width height margin (shift dx dy pts) = scaleOf c width height margin pts := by
    unfold scaleOf
    rw [ex, ey, lx, ly, gx, gy, add_sub_add_right_eq_sub, add_sub_add_right_eq_sub]
  unfold scaleGraph
  rw [hs, ex, ey, lx, ly]
  unfold shift
  rw [List.map_map]
  apply List.map_congr_left
  intro q _
  simp only [Function.comp, add_sub_add_right_eq_sub]

end

namespace VisEx
/-- Limits like those of `double`, smaller. -/
def lim : Limits ℚ := ⟨1000, 1 / 1000, 1 / 100000⟩
/-- Two points. -/
def pts : List (Point ℚ) := [⟨-2, 1, 0, 0⟩, ⟨-1, 1, 0, 0⟩]
end VisEx

theorem C148_fits_refuted : ¬ C148_statement := by
  intro h
  have := (h ℚ VisEx.lim (by norm_num [VisEx.lim]) (by norm_num [VisEx.lim]) 102 102 1 (by decide) (by decide) VisEx.pts
    (by intro q hq; simp only [VisEx.pts, List.mem_cons, List.not_mem_nil, or_false] at hq; rcases hq with rfl | rfl <;> norm_num [VisEx.lim])).2 3 0
    (by intro q hq; simp only [shift, VisEx.pts, List.map_cons, List.map_nil, List.mem_cons, List.not_mem_nil, or_false] at hq
        rcases hq with rfl | rfl <;> norm_num [VisEx.lim])
  revert this
  decide +kernel

example : Below VisEx.lim (shift 3 0 VisEx.pts) ∧ Positive VisEx.lim (shift 3 0 VisEx.pts) ∧ Positive VisEx.lim (shift 4 0 VisEx.pts) ∧
    scaleGraph VisEx.lim 102 102 1 (shift 3 0 VisEx.pts) = [(1, 1), (101, 1)] ∧ scaleGraph VisEx.lim 102 102 1 VisEx.pts = [(1, 1), (51, 1)] := by
  refine ⟨?_, ?_, ?_, by decide +kernel, by decide +kernel⟩
  · intro q hq
    simp only [shift, VisEx.pts, List.map_cons, List.map_nil, List.mem_cons, List.not_mem_nil, or_false] at hq
    rcases hq with rfl | rfl <;> norm_num [VisEx.lim]
  · exact ⟨⟨_, List.mem_cons_self, by norm_num [VisEx.lim]⟩, ⟨_, List.mem_cons_self, by norm_num [VisEx.lim]⟩⟩
  · exact ⟨⟨_, List.mem_cons_self, by norm_num [VisEx.lim]⟩, ⟨_, List.mem_cons_self, by norm_num [VisEx.lim]⟩⟩

/-! ## C149: the layout stays where it is -/

section
variable {F : Type} [Field F] [LinearOrder F] [IsStrictOrderedRing F]

/-- **C149.**  The centre of the points does not move, however many iterations there are: for points at rest, any springs and any parameters. -/
theorem C149_centre (p : Params F) (norm : F → F → F) (hnorm : ∀ x y, norm (-x) (-y) = norm x y) (mat : List (List Bool)) :
    ∀ (n : Nat) (pts : List (Point F)), (pts.map (·.vx)).sum = 0 → (pts.map (·.vy)).sum = 0 →
      ((iterateN p norm mat n pts).map (·.x)).sum = (pts.map (·.x)).sum ∧ ((iterateN p norm mat n pts).map (·.y)).sum = (pts.map (·.y)).sum := by
  intro n
  induction n with
  | zero => intro pts _ _; exact ⟨rfl, rfl⟩
  | succ n ih =>
    intro pts hx hy
    obtain ⟨vx, vy⟩ := velocity_iterate p norm hnorm mat pts
    obtain ⟨px, py⟩ := position_iterate p norm mat pts
    rw [hx, zero_mul] at vx
    rw [hy, zero_mul] at vy
    obtain ⟨h1, h2⟩ := ih (iterate p norm mat pts) vx vy
    unfold iterateN
    rw [h1, h2, px, py, vx, vy]
    simp

theorem sum_lt (xs : List F) (b : F) (hne : xs ≠ []) (h : ∀ x ∈ xs, x < b) : xs.sum < xs.length * b := by
  induction xs with
  | nil => exact absurd rfl hne
  | cons a l ih =>
    have ha := h a List.mem_cons_self
    by_cases hl : l = []
    · subst hl; simpa using ha
    · have := ih hl (fun x hx => h x (List.mem_cons_of_mem _ hx))
      simp only [List.sum_cons, List.length_cons]
      push_cast
      linarith

/-- Points that start at random places between 0 and 1 keep a point on the positive side: `scale_graph` always finds the largest coordinates. -/
theorem C149_positive (p : Params F) (c : Limits F) (norm : F → F → F) (hnorm : ∀ x y, norm (-x) (-y) = norm x y) (mat : List (List Bool)) (n : Nat)
    (pts : List (Point F)) (hne : pts ≠ []) (hv : ∀ q ∈ pts, q.vx = 0 ∧ q.vy = 0) (hs : ∀ q ∈ pts, c.tiny ≤ q.x ∧ c.tiny ≤ q.y) :
    Positive c (iterateN p norm mat n pts) := by
  have hz : ∀ (g : Point F → F), (∀ q ∈ pts, g q = 0) → (pts.map g).sum = 0 := by
    intro g hg
    have : pts.map g = pts.map (fun _ => (0 : F)) := List.map_congr_left hg
    rw [this]
    clear this hg hs hv hne
    induction pts with
    | nil => rfl
    | cons a l ih => simp
  obtain ⟨h1, h2⟩ := C149_centre p norm hnorm mat n pts (hz _ fun q hq => (hv q hq).1) (hz _ fun q hq => (hv q hq).2)
  have hlen := iterateN_length p norm mat n pts
  have hpos : 0 < pts.length := List.length_pos_iff.2 hne
  have main : ∀ g : Point F → F, ((iterateN p norm mat n pts).map g).sum = (pts.map g).sum → (∀ q ∈ pts, c.tiny ≤ g q) →
      ∃ q ∈ iterateN p norm mat n pts, c.tiny ≤ g q := by
    intro g hg hq
    by_contra hno
    have hlt : ∀ x ∈ (iterateN p norm mat n pts).map g, x < c.tiny := by
      intro x hx
      obtain ⟨q, hq, rfl⟩ := List.mem_map.1 hx
      exact not_le.1 (fun h => hno ⟨q, hq, h⟩)
    have hne' : (iterateN p norm mat n pts).map g ≠ [] := by
      intro h
      have := congrArg List.length h
      rw [List.length_map, hlen] at this
      simp only [List.length_nil] at this
      omega
    have h3 := sum_lt _ _ hne' hlt
    rw [hg, List.length_map, hlen] at h3
    have h4 : ∀ l : List (Point F), (∀ q ∈ l, c.tiny ≤ g q) → (l.length : F) * c.tiny ≤ (l.map g).sum := by
      intro l
      induction l with
      | nil => intro _; simp
      | cons a l ih =>
        intro h
        have := ih (fun q hq => h q (List.mem_cons_of_mem _ hq))
        have := h a List.mem_cons_self
        simp only [List.map_cons, List.sum_cons, List.length_cons]
        push_cast
        linarith
    exact absurd h3 (not_lt.2 (h4 pts hq))
  exact ⟨main _ h1 fun q hq => (hs q hq).1, main _ h2 fun q hq => (hs q hq).2⟩

/-- Positions of the nodes of a network: one for each node, inside the margins, scaled by the box the points really lie in. -/
theorem C149_network {P J : Type} [FloorRing F] (name : P → String) (net : Network P J) (ns : List Nat) (hs : Nodes net ns) (hne : ns ≠ [])
    (p : Params F) (c : Limits F) (hc : 0 < c.small) (norm : F → F → F) (hnorm : ∀ x y, norm (-x) (-y) = norm x y)
    (start : Nat → F × F) (hst : ∀ i, c.tiny ≤ (start i).1 ∧ c.tiny ≤ (start i).2) (width height margin : Int)
    (hw : 2 * margin ≤ width) (hh : 2 * margin ≤ height) (n : Nat) :
    ∃ pts : List (Point F), positionNetwork p c norm (graphOf name net) ns start width height margin n = .ok (scaleGraph c width height margin pts) ∧
      Inside width height margin (scaleGraph c width height margin pts) ∧ (scaleGraph c width height margin pts).length = ns.length ∧
      (pts.map (·.x)).sum = ((List.range ns.length).map (fun i => (start i).1)).sum ∧
      (pts.map (·.y)).sum = ((List.range ns.length).map (fun i => (start i).2)).sum ∧
      highest c (pts.map (·.x)) ∈ pts.map (·.x) ∧ highest c (pts.map (·.y)) ∈ pts.map (·.y) := by
  generalize hp0 : (ns.mapIdx (fun i _ => (⟨(start i).1, (start i).2, 0, 0⟩ : Point F))) = p0
  have hmem : ∀ q ∈ p0, ∃ i, q = (⟨(start i).1, (start i).2, 0, 0⟩ : Point F) := by
    intro q hq
    rw [← hp0, List.mem_mapIdx] at hq
    obtain ⟨i, _, h⟩ := hq
    exact ⟨i, h.symm⟩
  have hlen : p0.length = ns.length := by rw [← hp0]; simp
  have hne0 : p0 ≠ [] := by
    intro h; rw [h] at hlen; exact hne (List.eq_nil_of_length_eq_zero hlen.symm)
  have hv : ∀ q ∈ p0, q.vx = 0 ∧ q.vy = 0 := by intro q hq; obtain ⟨i, rfl⟩ := hmem q hq; exact ⟨rfl, rfl⟩
  have hstart : ∀ q ∈ p0, c.tiny ≤ q.x ∧ c.tiny ≤ q.y := by intro q hq; obtain ⟨i, rfl⟩ := hmem q hq; exact hst i
  have hsum : ∀ (g : Point F → F) (f : Nat → F), (∀ i, g ⟨(start i).1, (start i).2, 0, 0⟩ = f i) → (p0.map g).sum = ((List.range ns.length).map f).sum := by
    intro g f hg
    congr 1
    rw [← hp0]
    apply List.ext_getElem?
    intro i
    rw [List.getElem?_map, List.getElem?_mapIdx, List.getElem?_map]
    rcases Nat.lt_or_ge i ns.length with h | h
    · rw [List.getElem?_eq_getElem h, List.getElem?_range h]; simp [hg]
    · rw [List.getElem?_eq_none h, List.getElem?_eq_none (by rw [List.length_range]; exact h)]; rfl
  have hz : ∀ (g : Point F → F), (∀ q ∈ p0, g q = 0) → (p0.map g).sum = 0 := by
    intro g hg
    have : p0.map g = p0.map (fun _ => (0 : F)) := List.map_congr_left hg
    rw [this]
    generalize p0 = l
    induction l with
    | nil => rfl
    | cons a l ih => simp
  have hsp := springs_eq name net ns hs.2
  refine ⟨iterateN p norm (ns.map (springRow name net ns)) n p0, ?_, ?_⟩
  · unfold positionNetwork
    rw [graph_adj]
    simp only [Outcome.bind]
    rw [hsp]
    simp only
    rw [hp0]
  · obtain ⟨h1, h2⟩ := C148_inside c hc width height margin hw hh (iterateN p norm (ns.map (springRow name net ns)) n p0)
    obtain ⟨h3, h4⟩ := C149_centre p norm hnorm (ns.map (springRow name net ns)) n p0 (hz _ fun q hq => (hv q hq).1) (hz _ fun q hq => (hv q hq).2)
    obtain ⟨⟨q, hq, h5⟩, ⟨r, hr, h6⟩⟩ := C149_positive p c norm hnorm (ns.map (springRow name net ns)) n p0 hne0 hv hstart
    refine ⟨h1, ?_, ?_, ?_, ?_, ?_⟩
    · rw [h2, iterateN_length, hlen]
    · rw [h3]; exact hsum _ _ (fun _ => rfl)
    · rw [h4]; exact hsum _ _ (fun _ => rfl)
    · exact highest_mem c _ ⟨q.x, List.mem_map_of_mem hq, h5⟩
    · exact highest_mem c _ ⟨r.y, List.mem_map_of_mem hr, h6⟩

end

namespace VisEx
/-- Parameters of graph_physics.h. -/
def par : Params ℚ := ⟨1, 1, 3 / 10, 1, 1 / 100000, 1 / 5⟩
/-- A norm. -/
def nrm (x y : ℚ) : ℚ := |x| + |y|
end VisEx

example : (∀ x y : ℚ, VisEx.nrm (-x) (-y) = VisEx.nrm x y) ∧ Nodes VisEx.net [0, 2] ∧
    positionNetwork VisEx.par VisEx.lim VisEx.nrm (graphOf (fun _ => "p") VisEx.net) [0, 2] (fun i => ((i + 1) / 4, 1 / (2 * i + 2))) 200 100 10 2 =
      .ok [(10, 90), (90, 10)] := by
  refine ⟨fun x y => by simp [VisEx.nrm], ⟨by decide, by decide⟩, by decide +kernel⟩

end Knp.Props
