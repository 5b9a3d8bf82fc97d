/-
Property C41: tracing of the field lines.
-/
import Verif.Model.FieldLines
import Verif.Props.FullEval
import Verif.Lemmas.NdArray
import Mathlib.Logic.Function.Iterate

set_option linter.unusedSectionVars false

namespace Verif.Props

open Verif.Geo Verif.Spec Verif.FieldLines

/-- Radius of a point. -/
noncomputable def radiusOf (p : V3 ℝ) : ℝ := Real.sqrt (p.x ^ 2 + p.y ^ 2 + p.z ^ 2)

theorem vnorm_eq (p : V3 ℝ) : vnorm libm p = radiusOf p := by
  unfold vnorm radiusOf
  simp only [pow_two]
  rfl

/-- One step along (`sign = 1`) or against (`sign = -1`) the field `ev`: the displacement is
parallel to the field, its length is the step length times the ratio of the radius of the
point and the reference radius; no displacement for zero field; NaN after NaN. -/
noncomputable def nextPoint (ev : Option (V3 ℝ) → Option (V3 ℝ)) (R step sign : ℝ) (p : Option (V3 ℝ)) :
    Option (V3 ℝ) :=
  match p, ev p with
  | some p, some b =>
    if b = ⟨0, 0, 0⟩ then some p
    else some (vadd p (vsmul (sign * step * radiusOf p / (R * radiusOf b)) b))
  | _, _ => none

theorem radiusOf_pos {b : V3 ℝ} : 0 < radiusOf b ↔ b ≠ ⟨0, 0, 0⟩ := by
  unfold radiusOf
  rw [Real.sqrt_pos]
  constructor
  · rintro h rfl
    simp at h
  · intro h
    obtain ⟨x, y, z⟩ := b
    by_contra hc
    have h1 := sq_nonneg x
    have h2 := sq_nonneg y
    have h3 := sq_nonneg z
    simp only at hc
    refine h ?_
    rw [pow_eq_zero_iff (n := 2) (by norm_num) |>.mp (by linarith : x ^ 2 = 0),
      pow_eq_zero_iff (n := 2) (by norm_num) |>.mp (by linarith : y ^ 2 = 0),
      pow_eq_zero_iff (n := 2) (by norm_num) |>.mp (by linarith : z ^ 2 = 0)]

theorem advance_eq (ev : Option (V3 ℝ) → Option (V3 ℝ)) (R step : ℝ) (back : Bool) (p : Option (V3 ℝ)) :
    advance step p (evalDir libm ev back R p).1 = nextPoint ev R step (if back then -1 else 1) p := by
  unfold advance evalDir nextPoint
  cases p with
  | none => cases ev none <;> rfl
  | some p =>
    cases ev (some p) with
    | none => rfl
    | some b =>
      simp only [vnorm_eq, gt_iff_lt, radiusOf_pos]
      by_cases h : b = ⟨0, 0, 0⟩
      · simp [h, scaled, plus]
      · simp only [h, ne_eq, not_false_eq_true, if_true, if_false, Option.map_some, Option.bind_eq_bind,
          Option.bind_some, Option.pure_def]
        congr 1
        refine V3.ext' ?_ ?_ ?_ <;> simp only [plus, scaled, vadd, vsmul] <;> ring

theorem evalDir_snd (ev : Option (V3 ℝ) → Option (V3 ℝ)) (R : ℝ) (back : Bool) (p : Option (V3 ℝ)) :
    (evalDir libm ev back R p).2 = ev p := rfl

/-- Tracing stops at the point. -/
def Stops (opt : Options ℝ) (p : Option (V3 ℝ)) : Prop :=
  ∃ q, p = some q ∧ (radiusOf q ≤ opt.minRadius ∨ opt.maxRadius ≤ radiusOf q)

theorem didConverge_iff (opt : Options ℝ) (p : Option (V3 ℝ)) : didConverge libm opt p = true ↔ Stops opt p := by
  unfold didConverge Stops
  cases p with
  | none => simp
  | some q => simp [vnorm_eq]

theorem loop_spec (em : Option (V3 ℝ) → Option (V3 ℝ) × Option (V3 ℝ)) (opt : Options ℝ)
    (next : Option (V3 ℝ) → Option (V3 ℝ)) (hn : ∀ p, advance opt.step p (em p).1 = next p) :
    ∀ (m : Nat) (p : Option (V3 ℝ)) (ps vs : List (Option (V3 ℝ))), ∃ n, n ≤ m ∧
      traceLoop libm em opt m p ps vs = (next^[n] p,
        ps ++ (List.range n).map (fun k => next^[k + 1] p), vs ++ (List.range n).map (fun k => (em (next^[k] p)).2)) ∧
      (∀ k, 1 ≤ k → k < n → ¬Stops opt (next^[k] p)) ∧ (n = m ∨ 1 ≤ n ∧ Stops opt (next^[n] p))
  | 0, p, ps, vs => ⟨0, le_refl _, by simp [traceLoop], by omega, .inl rfl⟩
  | m + 1, p, ps, vs => by
    rw [traceLoop]
    simp only [hn]
    by_cases hc : didConverge libm opt (next p) = true
    · rw [if_pos hc]
      exact ⟨1, by omega, by simp, by omega, .inr ⟨le_refl _, (didConverge_iff _ _).mp hc⟩⟩
    · rw [if_neg hc]
      obtain ⟨n, h1, h2, h3, h4⟩ := loop_spec em opt next hn m (next p) (ps ++ [next p]) (vs ++ [(em p).2])
      refine ⟨n + 1, by omega, ?_, ?_, ?_⟩
      · rw [h2, List.range_succ_eq_map]
        simp only [List.map_cons, List.map_map, List.append_assoc, List.singleton_append, Function.iterate_succ,
          Function.comp_def, Function.iterate_zero, id]
      · intro k k1 k2
        obtain ⟨j, rfl⟩ : ∃ j, k = j + 1 := ⟨k - 1, by omega⟩
        rw [Function.iterate_succ_apply]
        rcases Nat.eq_zero_or_pos j with rfl | hj
        · exact fun h => hc ((didConverge_iff _ _).mpr h)
        · exact h3 j hj (by omega)
      · rw [Function.iterate_succ_apply]
        rcases h4 with h4 | ⟨h4, h5⟩
        · exact .inl (by omega)
        · exact .inr ⟨by omega, h5⟩

/-- Number of steps: up to the first point where the tracing stops, and at most `m`. -/
def Steps (opt : Options ℝ) (next : Option (V3 ℝ) → Option (V3 ℝ)) (p : Option (V3 ℝ)) (n : Nat) : Prop :=
  n ≤ opt.maxSteps.toNat ∧ (∀ k, 1 ≤ k → k < n → ¬Stops opt (next^[k] p)) ∧
    (n = opt.maxSteps.toNat ∨ 1 ≤ n ∧ Stops opt (next^[n] p))

theorem segment_spec (ev : Option (V3 ℝ) → Option (V3 ℝ)) (back : Bool) (R : ℝ) (opt : Options ℝ)
    (p : Option (V3 ℝ)) : ∃ n, Steps opt (nextPoint ev R opt.step (if back then -1 else 1)) p n ∧
      traceSegment libm (evalDir libm ev back R) opt p =
        ((List.range (n + 1)).map (fun k => (nextPoint ev R opt.step (if back then -1 else 1))^[k] p),
         (List.range (n + 1)).map (fun k => ev ((nextPoint ev R opt.step (if back then -1 else 1))^[k] p))) := by
  obtain ⟨n, h1, h2, h3, h4⟩ := loop_spec (evalDir libm ev back R) opt
    (nextPoint ev R opt.step (if back then -1 else 1)) (fun p => advance_eq ev R opt.step back p)
    opt.maxSteps.toNat p [p] []
  refine ⟨n, ⟨h1, h3, h4⟩, ?_⟩
  unfold traceSegment
  simp only [h2, evalDir_snd, List.nil_append]
  refine Prod.ext ?_ ?_
  · rw [List.range_succ_eq_map]
    simp
  · rw [List.range_succ]
    simp

/-- **C41**, the traced line in the Cartesian coordinates: `a` steps against the field and
`b` steps along it; point number `a` is the start point; each vector is the field at its
point. -/
theorem C41_cartesian (ev : Option (V3 ℝ) → Option (V3 ℝ)) (R : ℝ) (opt : Options ℝ) (p : Option (V3 ℝ)) :
    ∃ a b, Steps opt (nextPoint ev R opt.step (-1)) p a ∧ Steps opt (nextPoint ev R opt.step 1) p b ∧
      (traceCartesian libm ev R opt p).1.length = a + b + 1 ∧
      (∀ k, k ≤ a → (traceCartesian libm ev R opt p).1[a - k]? = some ((nextPoint ev R opt.step (-1))^[k] p)) ∧
      (∀ k, k ≤ b → (traceCartesian libm ev R opt p).1[a + k]? = some ((nextPoint ev R opt.step 1)^[k] p)) ∧
      (traceCartesian libm ev R opt p).2 = (traceCartesian libm ev R opt p).1.map ev := by
  obtain ⟨a, ha, ea⟩ := segment_spec ev true R opt p
  obtain ⟨b, hb, eb⟩ := segment_spec ev false R opt p
  simp only [if_true, Bool.false_eq_true, if_false] at ha ea hb eb
  refine ⟨a, b, ha, hb, ?_⟩
  have hl : ∀ f : Nat → Option (V3 ℝ), (((List.range (a + 1)).map f).reverse.dropLast).length = a := by
    intro f; simp
  have hg : ∀ f : Nat → Option (V3 ℝ), ∀ k, 1 ≤ k → k ≤ a →
      (((List.range (a + 1)).map f).reverse.dropLast)[a - k]? = some (f k) := by
    intro f k h1 h2
    rw [List.getElem?_dropLast, if_pos (by simp; omega), List.getElem?_reverse (by simp)]
    simp only [List.length_map, List.length_range]
    rw [List.getElem?_map, List.getElem?_range (by omega), Option.map_some]
    congr 2
    omega
  unfold traceCartesian
  simp only [ea, eb]
  refine ⟨by simp; omega, ?_, ?_, ?_⟩
  · intro k hk
    rcases Nat.eq_zero_or_pos k with rfl | h0
    · rw [List.getElem?_append_right (by rw [hl]; omega), hl]
      simp
    · rw [List.getElem?_append_left (by rw [hl]; omega), hg _ k h0 hk]
  · intro k hk
    rw [List.getElem?_append_right (by rw [hl]; omega), hl, Nat.add_sub_cancel_left, List.getElem?_map,
      List.getElem?_range (by omega)]
    rfl
  · simp only [List.map_append, List.map_dropLast, List.map_reverse, List.map_map]
    rfl

theorem outPoint_code (o : CT) (p : Option (V3 ℝ)) :
    outPoint libm (code o) p = some (p.map (getFconv libm .cartesian o)) := by
  cases p with
  | none => rfl
  | some p =>
    have h := convert_code .cartesian o p
    rw [show code .cartesian = 2 from rfl] at h
    simp [outPoint, h]

/-- Rotated vector, total form of the model's row. -/
noncomputable def rotated (o : CT) : Option (V3 ℝ) → Option (V3 ℝ) → Option (V3 ℝ)
  | none, _ => none
  | some f, some c => vrotate libm f none (some c) 2 (code o)
  | some f, none => if o = .cartesian then some f else none

theorem outVector_code (o : CT) (q : Option (V3 ℝ) × Option (V3 ℝ)) :
    outVector libm (code o) q = some (rotated o q.1 q.2) := by
  obtain ⟨f, c⟩ := q
  cases f <;> cases c <;> cases o <;> rfl

theorem rotated_cart (o : CT) (f c : V3 ℝ) : ∃ w, rotated o (some f) (some c) = some w ∧ toCart o c w = f := by
  cases o
  · exact ⟨vrotCart2sph libm f c.x c.y, rfl, (C33_inverse f c.x c.y).2⟩
  · exact ⟨vrotCart2sph libm f c.x c.y, rfl, (C33_inverse f c.x c.y).2⟩
  · exact ⟨f, rfl, rfl⟩

theorem mapM_some {α β : Type} (f : α → β) : ∀ l : List α, l.mapM (fun a => some (f a)) = some (l.map f)
  | [] => rfl
  | a :: l => by rw [List.mapM_cons, mapM_some f l]; rfl

/-- **C41**.  For every field function, start point, limits and coordinate systems the
tracing ends and returns `a + b + 1` points `cs` (converted to the output system) and as
many vectors: `a` steps against the field and `b` steps along it, each at most `max_steps`.
Point number `a` is the start point.  Neighbouring points are joined by a step along the
field.  The radii of the points other than the start point and the two ends are within the
limits.  The ends are out of the limits, or `max_steps` were made.  Each vector has, in the
output system at its point, the components of the field at that point. -/
theorem C41_trace (ev : Option (V3 ℝ) → Option (V3 ℝ)) (R : ℝ) (opt : Options ℝ) (i o : CT) (v : V3 ℝ) :
    ∃ (a b : Nat) (cs coords field : List (Option (V3 ℝ))), traceFieldLine libm ev R opt (code i) (code o) v = some (coords, field) ∧
      coords.length = a + b + 1 ∧ field.length = a + b + 1 ∧ cs.length = a + b + 1 ∧
      a ≤ opt.maxSteps.toNat ∧ b ≤ opt.maxSteps.toNat ∧
      (∀ k : Nat, coords[k]? = cs[k]?.map (Option.map (getFconv libm .cartesian o))) ∧
      cs[a]? = some (some (getFconv libm i .cartesian v)) ∧
      (∀ k : Nat, k < a → cs[k]? = cs[k + 1]?.map (nextPoint ev R opt.step (-1))) ∧
      (∀ k : Nat, a ≤ k → k < a + b → cs[k + 1]? = cs[k]?.map (nextPoint ev R opt.step 1)) ∧
      (∀ (k : Nat) p, 0 < k → k < a + b → k ≠ a → cs[k]? = some (some p) →
        opt.minRadius < radiusOf p ∧ radiusOf p < opt.maxRadius) ∧
      (a = opt.maxSteps.toNat ∨ 1 ≤ a ∧ ∃ p, cs[0]? = some p ∧ Stops opt p) ∧
      (b = opt.maxSteps.toNat ∨ 1 ≤ b ∧ ∃ p, cs[a + b]? = some p ∧ Stops opt p) ∧
      (∀ (k : Nat) p f, cs[k]? = some (some p) → ev (some p) = some f →
        ∃ w, field[k]? = some (some w) ∧ toCart o (getFconv libm .cartesian o p) w = f) := by
  obtain ⟨a, b, ⟨ha1, ha2, ha3⟩, ⟨hb1, hb2, hb3⟩, hl, hu, hd, hf⟩ :=
    C41_cartesian ev R opt (some (getFconv libm i .cartesian v))
  set r := traceCartesian libm ev R opt (some (getFconv libm i .cartesian v)) with hr
  have hc := convert_code i .cartesian v
  rw [show code .cartesian = 2 from rfl] at hc
  refine ⟨a, b, r.1, r.1.map (Option.map (getFconv libm .cartesian o)),
    (List.zip r.2 (r.1.map (Option.map (getFconv libm .cartesian o)))).map (fun q => rotated o q.1 q.2),
    ?_, ?_, ?_, hl, ha1, hb1, ?_, ?_, ?_, ?_, ?_, ?_, ?_, ?_⟩
  · unfold traceFieldLine
    rw [hc, Option.bind_eq_bind, Option.bind_some, ← hr]
    simp only
    rw [show (outPoint libm (code o)) = fun p => some (p.map (getFconv libm .cartesian o)) from
      funext (outPoint_code o), mapM_some, Option.bind_eq_bind, Option.bind_some,
      show (outVector libm (code o)) = fun q => some (rotated o q.1 q.2) from
      funext (outVector_code o), mapM_some]
    rfl
  · simpa using hl
  · simp [hf, hl]
  · intro k
    rw [List.getElem?_map]
  · simpa using hu 0 (by omega)
  · intro k hk
    have h1 := hu (a - k) (by omega)
    have h2 := hu (a - (k + 1)) (by omega)
    rw [show a - (a - k) = k by omega] at h1
    rw [show a - (a - (k + 1)) = k + 1 by omega] at h2
    rw [h1, h2, Option.map_some, show a - k = (a - (k + 1)).succ by omega, Function.iterate_succ_apply']
  · intro k k1 k2
    have h1 := hd (k - a) (by omega)
    have h2 := hd (k + 1 - a) (by omega)
    rw [show a + (k - a) = k by omega] at h1
    rw [show a + (k + 1 - a) = k + 1 by omega] at h2
    rw [h1, h2, Option.map_some, show k + 1 - a = (k - a).succ by omega, Function.iterate_succ_apply']
  · intro k p k1 k2 k3 hk
    have key : ¬Stops opt (some p) := by
      rcases Nat.lt_or_gt_of_ne k3 with k4 | k4
      · have h1 := hu (a - k) (by omega)
        rw [show a - (a - k) = k by omega, hk] at h1
        rw [Option.some.inj h1]
        exact ha2 _ (by omega) (by omega)
      · have h1 := hd (k - a) (by omega)
        rw [show a + (k - a) = k by omega, hk] at h1
        rw [Option.some.inj h1]
        exact hb2 _ (by omega) (by omega)
    constructor
    · by_contra h
      exact key ⟨p, rfl, .inl (not_lt.mp h)⟩
    · by_contra h
      exact key ⟨p, rfl, .inr (not_lt.mp h)⟩
  · rcases ha3 with h | ⟨h', h⟩
    · exact .inl h
    · exact .inr ⟨h', _, by simpa using hu a (le_refl _), h⟩
  · rcases hb3 with h | ⟨h', h⟩
    · exact .inl h
    · exact .inr ⟨h', _, hd b (le_refl _), h⟩
  · intro k p f hk hv
    obtain ⟨w, e1, e2⟩ := rotated_cart o f (getFconv libm .cartesian o p)
    refine ⟨w, ?_, e2⟩
    rw [List.getElem?_map, List.zip, List.getElem?_zipWith, hf, List.getElem?_map, List.getElem?_map, hk]
    simp [hv, e1]

/-- **C41**, at most `2 * max_steps + 1` points; as many vectors as points. -/
theorem C41_length (ev : Option (V3 ℝ) → Option (V3 ℝ)) (R : ℝ) (opt : Options ℝ) (i o : CT) (v : V3 ℝ)
    (coords field : List (Option (V3 ℝ)))
    (h : traceFieldLine libm ev R opt (code i) (code o) v = some (coords, field)) :
    coords.length = field.length ∧ 1 ≤ coords.length ∧ coords.length ≤ 2 * opt.maxSteps.toNat + 1 := by
  obtain ⟨a, b, cs, c', f', h1, h2, h3, h4, h5, h6, _⟩ := C41_trace ev R opt i o v
  rw [h] at h1
  obtain ⟨rfl, rfl⟩ := Prod.mk.inj (Option.some.inj h1)
  omega

theorem next_some {ev : Option (V3 ℝ) → Option (V3 ℝ)} (hev : ∀ p, (ev (some p)).isSome) (R step sign : ℝ)
    {p : Option (V3 ℝ)} (hp : p.isSome) : (nextPoint ev R step sign p).isSome := by
  obtain ⟨q, rfl⟩ := Option.isSome_iff_exists.mp hp
  obtain ⟨b, hb⟩ := Option.isSome_iff_exists.mp (hev q)
  unfold nextPoint
  rw [hb]
  simp only
  split <;> rfl

/-- **C41**, no NaN in the result for a field without NaN. -/
theorem C41_finite (ev : Option (V3 ℝ) → Option (V3 ℝ)) (hev : ∀ p, (ev (some p)).isSome) (R : ℝ)
    (opt : Options ℝ) (i o : CT) (v : V3 ℝ) (coords field : List (Option (V3 ℝ)))
    (h : traceFieldLine libm ev R opt (code i) (code o) v = some (coords, field)) :
    (∀ c ∈ coords, c.isSome) ∧ (∀ f ∈ field, f.isSome) := by
  obtain ⟨a, b, cs, c', f', h1, h2, h3, h4, h5, h6, hc, hs, hu, hd, hr, _, _, hf⟩ := C41_trace ev R opt i o v
  rw [h] at h1
  obtain ⟨rfl, rfl⟩ := Prod.mk.inj (Option.some.inj h1)
  have up : ∀ k, k ≤ a → ∃ p, cs[a - k]? = some (some p) := by
    intro k
    induction k with
    | zero => intro _; exact ⟨_, hs⟩
    | succ k ih =>
      intro hk
      obtain ⟨p, hp⟩ := ih (by omega)
      have := hu (a - (k + 1)) (by omega)
      rw [show a - (k + 1) + 1 = a - k by omega, hp, Option.map_some] at this
      obtain ⟨q, hq⟩ := Option.isSome_iff_exists.mp (next_some hev R opt.step (-1) (p := some p) rfl)
      exact ⟨q, by rw [this, hq]⟩
  have down : ∀ k, k ≤ b → ∃ p, cs[a + k]? = some (some p) := by
    intro k
    induction k with
    | zero => intro _; exact ⟨_, hs⟩
    | succ k ih =>
      intro hk
      obtain ⟨p, hp⟩ := ih (by omega)
      have := hd (a + k) (by omega) (by omega)
      rw [hp, Option.map_some] at this
      obtain ⟨q, hq⟩ := Option.isSome_iff_exists.mp (next_some hev R opt.step 1 (p := some p) rfl)
      exact ⟨q, by rw [← Nat.add_assoc, this, hq]⟩
  have all : ∀ k, k < a + b + 1 → ∃ p, cs[k]? = some (some p) := by
    intro k hk
    rcases Nat.le_total k a with h | h
    · simpa [show a - (a - k) = k by omega] using up (a - k) (by omega)
    · simpa [show a + (k - a) = k by omega] using down (k - a) (by omega)
  constructor
  · intro c hcm
    obtain ⟨k, hk, rfl⟩ := List.getElem_of_mem hcm
    obtain ⟨p, hp⟩ := all k (by omega)
    have := hc k
    rw [hp, List.getElem?_eq_getElem hk] at this
    rw [Option.some.inj this]
    rfl
  · intro f hfm
    obtain ⟨k, hk, rfl⟩ := List.getElem_of_mem hfm
    obtain ⟨p, hp⟩ := all k (by omega)
    obtain ⟨b, hb⟩ := Option.isSome_iff_exists.mp (hev p)
    obtain ⟨w, hw, _⟩ := hf k p b hp hb
    rw [List.getElem?_eq_getElem hk] at hw
    rw [Option.some.inj hw]
    rfl

theorem mapM_mem {α β : Type} {f : α → Option β} : ∀ {l : List α} {r : List β}, l.mapM f = some r →
    ∀ a ∈ l, ∃ b, f a = some b
  | [], _, _, a, h => by simp at h
  | c :: l, r, h, a, ha => by
    rw [List.mapM_cons] at h
    cases hc : f c with
    | none => simp [hc] at h
    | some b =>
      cases hl : l.mapM f with
      | none => simp [hc, hl] at h
      | some r' =>
        rcases List.mem_cons.mp ha with rfl | ha
        · exact ⟨b, hc⟩
        · exact mapM_mem hl a ha

/-- **C41**, the codes which are not coordinate systems are rejected. -/
theorem C41_codes (ev : Option (V3 ℝ) → Option (V3 ℝ)) (R : ℝ) (opt : Options ℝ) (i o : Int) (v : V3 ℝ) :
    traceFieldLine libm ev R opt i o v = none ↔ ¬(0 ≤ i ∧ i ≤ 2 ∧ 0 ≤ o ∧ o ≤ 2) := by
  constructor
  · rintro h ⟨i1, i2, o1, o2⟩
    obtain ⟨i', rfl⟩ : ∃ c, i = code c := by
      obtain rfl | rfl | rfl : i = 0 ∨ i = 1 ∨ i = 2 := by omega
      exacts [⟨.geodetic, rfl⟩, ⟨.spherical, rfl⟩, ⟨.cartesian, rfl⟩]
    obtain ⟨o', rfl⟩ : ∃ c, o = code c := by
      obtain rfl | rfl | rfl : o = 0 ∨ o = 1 ∨ o = 2 := by omega
      exacts [⟨.geodetic, rfl⟩, ⟨.spherical, rfl⟩, ⟨.cartesian, rfl⟩]
    obtain ⟨a, b, cs, c', f', h1, _⟩ := C41_trace ev R opt i' o' v
    rw [h1] at h
    cases h
  · intro h
    unfold traceFieldLine
    cases hc : convert libm v i 2 with
    | none => rfl
    | some p =>
      have hi : 0 ≤ i ∧ i ≤ 2 := by
        by_contra hn
        rw [(C32_codes i 2 v).mpr (fun hh => hn ⟨hh.1, hh.2.1⟩)] at hc
        cases hc
      obtain ⟨a, b, _, _, hl, hu, _⟩ := C41_cartesian ev R opt (some p)
      have h0 := hu 0 (by omega)
      rw [Option.bind_eq_bind, Option.bind_some]
      simp only
      cases hm : (traceCartesian libm ev R opt (some p)).1.mapM (outPoint libm o) with
      | none => rfl
      | some l =>
        obtain ⟨q, hq⟩ := mapM_mem hm (some p) (List.mem_of_getElem? h0)
        rw [outPoint, (C32_codes 2 o p).mpr (fun hh => h ⟨hi.1, hi.2, hh.2.2⟩)] at hq
        cases hq

/-- Options of the example: one step. -/
noncomputable def oneStep : Options ℝ := ⟨100, 1, 6000, 12000⟩

/-- The start point itself is not checked: an inner point below the minimum radius. -/
theorem C41_start_unchecked : ∃ coords field p,
    traceFieldLine libm (fun _ => some ⟨0, 0, 1⟩) 6371.2 oneStep (code .cartesian) (code .cartesian) ⟨0, 0, 5000⟩ =
      some (coords, field) ∧ coords.length = 3 ∧ coords[1]? = some (some p) ∧ radiusOf p < oneStep.minRadius := by
  obtain ⟨a, b, cs, coords, field, h1, h2, _, _, h5, h6, hc, hs, _, _, _, ha, hb, _⟩ :=
    C41_trace (fun _ => some ⟨0, 0, 1⟩) 6371.2 oneStep .cartesian .cartesian ⟨0, 0, 5000⟩
  have hm : oneStep.maxSteps.toNat = 1 := rfl
  rw [hm] at h5 h6 ha hb
  have ha' : a = 1 := by
    rcases ha with h | ⟨h, _⟩ <;> omega
  have hb' : b = 1 := by
    rcases hb with h | ⟨h, _⟩ <;> omega
  subst ha' hb'
  refine ⟨coords, field, ⟨0, 0, 5000⟩, h1, h2, ?_, ?_⟩
  · rw [hc, hs]
    rfl
  · simp [radiusOf, oneStep]
    norm_num

/-- A field without NaN values. -/
example : ∀ p : V3 ℝ, ((fun q : Option (V3 ℝ) => q.map (vsmul 2)) (some p)).isSome := fun _ => rfl

/-- One step along the field (0, 0, 2) from (0, 0, 7000). -/
example : nextPoint (fun _ => some ⟨0, 0, 2⟩) 7000 100 1 (some ⟨0, 0, 7000⟩) = some ⟨0, 0, 7100⟩ := by
  have h1 : radiusOf ⟨0, 0, 7000⟩ = 7000 := by simp [radiusOf]
  have h2 : radiusOf ⟨0, 0, 2⟩ = 2 := by simp [radiusOf]
  simp [nextPoint, h1, h2, vadd, vsmul]
  norm_num

end Verif.Props
