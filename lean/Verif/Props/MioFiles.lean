import Verif.Model.MioFiles
import Verif.Props.MioField
import Verif.Props.Mio
import Verif.Props.Loaders

/-!
# C81: MIO models from the text of the files to the field
-/

set_option linter.unusedSectionVars false

namespace Verif.Props

open Verif.Geo Verif.Spec Verif.ShPoint Verif.FullEval Verif.Arr Verif.Buf Verif.Field Verif.Coeffs Verif.MioField
open Verif.Parsers Verif.MioFiles

/-! ### Specification: what a file says -/

/-- What is written in a MIO file: the header, and for each pair of degree and order a row of external (`qs`) and a row of
internal (`gh`) coefficients. -/
structure MioWritten where
  nmax : Int
  mmax : Int
  pmin : Int
  pmax : Int
  smin : Int
  smax : Int
  theta : ℝ
  phi : ℝ
  height : ℝ
  ratio : ℝ
  nm : List (Int × Int)
  qs : List (List ℝ)
  gh : List (List ℝ)

/-- The text of a file with this content: each pair once in each half, rows with a cosine and a sine for each pair of the
seasonal and diurnal wave numbers. -/
structure MioFile (pf : List Char → Option ℝ) (file : List Line) (c : MioWritten) : Prop where
  text : MioText pf file c.nmax c.mmax c.pmin c.pmax c.smin c.smax c.theta c.phi c.height c.ratio
    ((c.nm ++ c.nm).zip (c.qs ++ c.gh))
  nonempty : c.nm ≠ []
  external : c.qs.length = c.nm.length
  internal : c.gh.length = c.nm.length
  diurnal : c.pmin ≤ c.pmax
  seasonal : c.smin ≤ c.smax
  size : ∀ r ∈ c.qs ++ c.gh, (r.length : Int) = (c.smax - c.smin + 1) * (c.pmax - c.pmin + 1) * 2
  index : ∀ e ∈ c.nm, |e.2| ≤ e.1
  nodup : c.nm.Nodup

/-- Value of a row for the season `x` and the hour `y` (angles): the numbers in the row are the coefficients of the cosine and
the sine of the wave numbers, the seasonal ones first, from the least to the largest. -/
noncomputable def rowSeries (c : MioWritten) (row : List ℝ) (x y : ℝ) : ℝ :=
  ∑ s ∈ Finset.Icc c.smin c.smax, ∑ p ∈ Finset.Icc c.pmin c.pmax,
    (row.getD (2 * ((s - c.smin) * (c.pmax - c.pmin + 1) + (p - c.pmin))).toNat 0 * Real.cos (s * x + p * y) +
      row.getD (2 * ((s - c.smin) * (c.pmax - c.pmin + 1) + (p - c.pmin)) + 1).toNat 0 * Real.sin (s * x + p * y))

/-- The coefficients asked for, at the time `t` (days since 2000) and the magnetic time `mt` (hours): of the given rows, each
times a factor depending on the degree. -/
noncomputable def writtenEntries (c : MioWritten) (rows : List (List ℝ)) (factor : Int → ℝ) (opt : Options ℝ) (t mt : ℝ) :
    List ((Int × Int) × (ℝ → Prop)) :=
  ((c.nm.zip rows).filter (fun e => Kept opt e.1)).map (fun e => (e.1, fun v => v = factor e.1.1 *
    rowSeries c e.2 (2 * Real.pi * Time.mjd2kToYearFraction t) (2 * Real.pi * mt / 24)))

/-- The factor of the degree which makes external coefficients internal ones with the same radial field at the ionosphere. -/
noncomputable def shellFactor (height : ℝ) (n : Int) : ℝ :=
  -((n : ℝ) / (n + 1)) * ((6371.2 + height) / 6371.2) ^ (2 * n + 1)

/-- The three items of the result: NaN for the time NaN and F10.7 NaN, otherwise the field of the coefficients, times one plus
the Wolf ratio times F10.7, in the frame of the dipole (from `A`). -/
def MioFieldAt (entries : ℝ → ℝ → List ((Int × Int) × (ℝ → Prop))) (int : Bool) (wolf : ℝ) (A : M3 ℝ) (N : Nat) (i o : CT)
    (g : V3 ℝ) (tx : X ℝ) (F : Option (Option ℝ)) (la lo : Option ℝ) (x : V3 ℝ) (item : Fin 3 → Option (Option ℝ)) : Prop :=
  ((tx = .nan ∨ F = some none) → ∀ k, item k = some none) ∧
  (∀ t, tx = .fin t → ∀ c : ℝ, (F = none ∧ c = 1 ∨ ∃ f, F = some (some f) ∧ c = 1 + wolf * f) →
    ∃ v : V3 ℝ, (∀ k, item k = some (some (comp v k))) ∧
      (Pos i x → (∀ c s, convert libm x (code i) 2 = some c → convert libm (dot c A) 2 1 = some s →
          1 / 10 ^ 10 ≤ |Real.cos (s.x * (Real.pi / 180))| ∨ Real.cos (s.x * (Real.pi / 180)) = 0) →
        ∃ latS lonS mt, SubsolarPoint la lo t latS lonS ∧ MagneticTimeAt A latS lonS mt ∧
          DipoleField A (entries t mt) int N (byFactor c g) i o x v))

/-- The degrees asked for go up to `N`, and the wave numbers as in C29. -/
structure Askable (c : MioWritten) (opt : Options ℝ) (N : Nat) : Prop where
  degrees : c.pmin.natAbs ≤ 1 ∨ c.pmin.natAbs ≤ c.smin.natAbs ∨ c.pmin.natAbs ≤ c.smax.natAbs ∨
    c.pmin.natAbs ≤ c.pmax.natAbs
  degree : MaxDegree (c.nm.filter (Kept opt)) N
  one : 1 ≤ N
  fits : ncoef N < 2 ^ 45

/-- The model `m` evaluates to the field of the given coefficients of the file (in the frame from `A`) on arrays of any
shape. -/
def MioEvaluatesAs (m : MioModel ℝ) (A : M3 ℝ) (c : MioWritten) (rows : List (List ℝ)) (factor : Int → ℝ) (int : Bool) :
    Prop :=
  ∀ (alloc : Nat → Mem ℝ), (∀ N, MemOk (alloc N) N) → ∀ (junk : Nat → List ℝ), (∀ n, (junk n).length = n) →
  ∀ (junkX : Nat → List (X ℝ)), (∀ n, (junkX n).length = n) → ∀ (junk2 : Nat → ℝ × ℝ) (year : Int) (opt : Options ℝ)
    (N : Nat), Askable c opt N →
    ∀ (time : NdArray (X ℝ)) (loc : NdArray ℝ) (lt lead : List Nat) (T : List Nat → X ℝ) (P : List Nat → V3 ℝ),
    ItemsOf time lt T → VectorsOf loc lead P → lt <+: lead →
    (∀ idx, Index lt idx → T idx ≠ .ninf ∧ T idx ≠ .pinf) → (lt = [] → lead.length ≤ 14) →
    ∀ (f107 : Option (NdArray (Option ℝ))) (F : List Nat → Option (Option ℝ)), OptItems f107 lead F →
    (lt = [] → ∀ f, f107 = some f → f.arr.dim = []) →
    ∀ (lat lon : Option (NdArray ℝ)) (LA LO : List Nat → Option ℝ), OptItems lat lead LA → OptItems lon lead LO →
    ∀ (i o : CT) (g : V3 ℝ), BroadScaleOf opt.scale g →
  ∃ out, evalMio libm (mioEnv alloc junk junkX junk2 year) m time loc f107 lat lon (code i) (code o) opt =
      .ok (lead ++ [3], out) ∧ out.length = (lead ++ [3]).prod ∧
    ∀ idx, Index lead idx → MioFieldAt (writtenEntries c rows factor opt) int c.ratio A N i o g (T (idx.take lt.length))
      (F idx) (LA idx) (LO idx) (P idx) (fun k => out[rank (lead ++ [3]) (idx ++ [k.val])]?)

/-! ### The objects loaded -/

theorem inPairs_length {F : Type} : ∀ l : List F, (inPairs l).length = l.length / 2
  | [] => by simp [inPairs]
  | [_] => by simp [inPairs]
  | a :: b :: l => by
    simp only [inPairs, List.length_cons, inPairs_length l]
    omega

theorem inPairs_getD {F : Type} [Zero F] : ∀ (l : List F) (k : Nat), l.length % 2 = 0 →
    (inPairs l).getD k (0, 0) = (l.getD (2 * k) 0, l.getD (2 * k + 1) 0)
  | [], k, _ => by simp [inPairs]
  | [_], k, h => by simp at h
  | a :: b :: l, 0, _ => by simp [inPairs]
  | a :: b :: l, k + 1, h => by
    have h' : l.length % 2 = 0 := by simp only [List.length_cons] at h; omega
    have e1 : 2 * (k + 1) = 2 * k + 1 + 1 := by omega
    have e2 : 2 * (k + 1) + 1 = (2 * k + 1) + 1 + 1 := by omega
    rw [e2, e1]
    simp only [inPairs, List.getD_cons_succ]
    exact inPairs_getD l k h'

theorem pairs_mapM : ∀ nm : List (Int × Int), (nm.map (fun e => [e.1, e.2])).mapM pairOf = some nm
  | [] => rfl
  | e :: l => by
    rw [List.map_cons, List.mapM_cons, pairs_mapM l]
    rfl

theorem foldl_max_ge : ∀ (l : List Int) (a : Int), a ≤ l.foldl max a ∧ ∀ x ∈ l, x ≤ l.foldl max a
  | [], a => ⟨le_rfl, by simp⟩
  | b :: l, a => by
    obtain ⟨h1, h2⟩ := foldl_max_ge l (max a b)
    refine ⟨le_trans (le_max_left _ _) h1, ?_⟩
    intro x hx
    rcases List.mem_cons.mp hx with rfl | hx
    · exact le_trans (le_max_right _ _) h1
    · exact h2 x hx

theorem foldl_max_mem : ∀ (l : List Int) (a : Int), l.foldl max a = a ∨ l.foldl max a ∈ l
  | [], a => .inl rfl
  | b :: l, a => by
    rw [List.foldl_cons]
    rcases foldl_max_mem l (max a b) with h | h
    · rcases max_choice a b with h' | h' <;> rw [h, h']
      · exact .inl rfl
      · exact .inr (by simp)
    · exact .inr (List.mem_cons_of_mem _ h)

theorem maxOf_some {l : List Int} (h : l ≠ []) : ∃ d, maxOf l = some d ∧ d ∈ l ∧ ∀ x ∈ l, x ≤ d := by
  cases l with
  | nil => exact absurd rfl h
  | cons a l =>
    obtain ⟨h1, h2⟩ := foldl_max_ge l a
    refine ⟨_, rfl, ?_, ?_⟩
    · rcases foldl_max_mem l a with h | h
      · rw [h]; simp
      · exact List.mem_cons_of_mem _ h
    · intro x hx
      rcases List.mem_cons.mp hx with rfl | hx
      · exact h1
      · exact h2 x hx

theorem foldl_min_le : ∀ (l : List Int) (a : Int), l.foldl min a ≤ a ∧ ∀ x ∈ l, l.foldl min a ≤ x
  | [], a => ⟨le_rfl, by simp⟩
  | b :: l, a => by
    obtain ⟨h1, h2⟩ := foldl_min_le l (min a b)
    refine ⟨le_trans h1 (min_le_left _ _), ?_⟩
    intro x hx
    rcases List.mem_cons.mp hx with rfl | hx
    · exact le_trans h1 (min_le_right _ _)
    · exact h2 x hx

theorem foldl_min_mem : ∀ (l : List Int) (a : Int), l.foldl min a = a ∨ l.foldl min a ∈ l
  | [], a => .inl rfl
  | b :: l, a => by
    rw [List.foldl_cons]
    rcases foldl_min_mem l (min a b) with h | h
    · rcases min_choice a b with h' | h' <;> rw [h, h']
      · exact .inl rfl
      · exact .inr (by simp)
    · exact .inr (List.mem_cons_of_mem _ h)

theorem minOf_some {l : List Int} (h : l ≠ []) : ∃ d, minOf l = some d ∧ d ∈ l ∧ ∀ x ∈ l, d ≤ x := by
  cases l with
  | nil => exact absurd rfl h
  | cons a l =>
    obtain ⟨h1, h2⟩ := foldl_min_le l a
    refine ⟨_, rfl, ?_, ?_⟩
    · rcases foldl_min_mem l a with h | h
      · rw [h]; simp
      · exact List.mem_cons_of_mem _ h
    · intro x hx
      rcases List.mem_cons.mp hx with rfl | hx
      · exact h1
      · exact h2 x hx

theorem newMioCoef_ok {pf : List Char → Option ℝ} {file : List Line} {c : MioWritten} (h : MioFile pf file c)
    (rows : List (List (ℝ × ℝ))) (hr : rows.length = c.nm.length) (int : Bool) :
    newMioCoef (c.nm.map (fun e => [e.1, e.2])) rows c.pmin c.pmax c.smin c.smax int =
      some ⟨c.nm.zip rows, (c.smax - c.smin + 1).toNat, (c.pmax - c.pmin + 1).toNat, c.pmin, c.smin, .ninf, .pinf, int⟩ := by
  obtain ⟨d, hd, -⟩ := maxOf_some (l := c.nm.map Prod.fst) (by simpa using h.nonempty)
  unfold newMioCoef
  simp only [pairs_mapM, hd, Option.bind_eq_bind, Option.bind_some]
  rw [if_neg (by have := h.diurnal; have := h.seasonal; omega), if_neg (by simp [hr])]
  rfl

/-- Sums over the wave numbers as sums over positions. -/
theorem sum_Icc_range (a b : Int) (h : a ≤ b) (f : Int → ℝ) :
    ∑ s ∈ Finset.Icc a b, f s = ∑ i ∈ Finset.range (b - a + 1).toNat, f (a + i) := by
  refine (Finset.sum_bij (fun (i : Nat) _ => a + (i : Int)) ?_ ?_ ?_ ?_).symm
  · intro i hi
    rw [Finset.mem_range] at hi
    rw [Finset.mem_Icc]
    omega
  · intro i _ j _ hij
    omega
  · intro s hs
    rw [Finset.mem_Icc] at hs
    refine ⟨(s - a).toNat, ?_, ?_⟩
    · rw [Finset.mem_range]; omega
    · omega
  · intro i _
    rfl

theorem rowSeries_eq {c : MioWritten} (hp : c.pmin ≤ c.pmax) (hs : c.smin ≤ c.smax) (row : List ℝ) (he : row.length % 2 = 0)
    (x y : ℝ) :
    fourierSum (fun i j => ((inPairs row).getD (i * (c.pmax - c.pmin + 1).toNat + j) (0, 0)).1)
      (fun i j => ((inPairs row).getD (i * (c.pmax - c.pmin + 1).toNat + j) (0, 0)).2) (c.smax - c.smin + 1).toNat
      (c.pmax - c.pmin + 1).toNat c.smin c.pmin x y = rowSeries c row x y := by
  unfold fourierSum rowSeries
  rw [sum_Icc_range _ _ hs]
  refine Finset.sum_congr rfl (fun i _ => ?_)
  rw [sum_Icc_range _ _ hp]
  refine Finset.sum_congr rfl (fun j _ => ?_)
  simp only [inPairs_getD _ _ he]
  obtain ⟨w, hw⟩ : ∃ w : Nat, c.pmax - c.pmin + 1 = w := ⟨(c.pmax - c.pmin + 1).toNat, by omega⟩
  rw [hw]
  have e1 : (2 * ((c.smin + (i : Int) - c.smin) * (w : Int) + (c.pmin + (j : Int) - c.pmin))).toNat = 2 * (i * w + j) := by
    have : (2 * ((c.smin + (i : Int) - c.smin) * (w : Int) + (c.pmin + (j : Int) - c.pmin)) : Int) =
        ((2 * (i * w + j) : Nat) : Int) := by push_cast; ring
    rw [this]; exact Int.toNat_natCast _
  have e2 : (2 * ((c.smin + (i : Int) - c.smin) * (w : Int) + (c.pmin + (j : Int) - c.pmin)) + 1).toNat =
      2 * (i * w + j) + 1 := by
    have : (2 * ((c.smin + (i : Int) - c.smin) * (w : Int) + (c.pmin + (j : Int) - c.pmin)) + 1 : Int) =
        ((2 * (i * w + j) + 1 : Nat) : Int) := by push_cast; ring
    rw [this]; exact Int.toNat_natCast _
  rw [e1, e2]
  simp only [Int.toNat_natCast]
  push_cast
  rfl

/-- The row of a set of coefficients is that of the file times the factor of the degree. -/
def RowHolds (c : MioWritten) (factor : Int → ℝ) (a : (Int × Int) × List (ℝ × ℝ)) (b : (Int × Int) × List ℝ) : Prop :=
  a.1 = b.1 ∧ a.2.length = (c.smax - c.smin + 1).toNat * (c.pmax - c.pmin + 1).toNat ∧
    ∀ x y, fourierSum (fun i j => (a.2.getD (i * (c.pmax - c.pmin + 1).toNat + j) (0, 0)).1)
      (fun i j => (a.2.getD (i * (c.pmax - c.pmin + 1).toNat + j) (0, 0)).2) (c.smax - c.smin + 1).toNat
      (c.pmax - c.pmin + 1).toNat c.smin c.pmin x y = factor b.1.1 * rowSeries c b.2 x y

theorem rows_entries {c : MioWritten} {factor : Int → ℝ} (opt : Options ℝ) (t mt : ℝ)
    {as : List ((Int × Int) × List (ℝ × ℝ))} {bs : List ((Int × Int) × List ℝ)} (h : List.Forall₂ (RowHolds c factor) as bs) :
    (as.filter (fun e => Kept opt e.1)).map (fun e => (e.1, fun v => v =
      fourierSum (fun i j => (e.2.getD (i * (c.pmax - c.pmin + 1).toNat + j) (0, 0)).1)
        (fun i j => (e.2.getD (i * (c.pmax - c.pmin + 1).toNat + j) (0, 0)).2) (c.smax - c.smin + 1).toNat
        (c.pmax - c.pmin + 1).toNat c.smin c.pmin (2 * Real.pi * Time.mjd2kToYearFraction t) (2 * Real.pi / 24 * mt))) =
    (bs.filter (fun e => Kept opt e.1)).map (fun e => (e.1, fun v => v = factor e.1.1 *
      rowSeries c e.2 (2 * Real.pi * Time.mjd2kToYearFraction t) (2 * Real.pi * mt / 24))) := by
  induction h with
  | nil => rfl
  | @cons a b as bs hab _ ih =>
    obtain ⟨h1, -, h2⟩ := hab
    rw [List.filter_cons, List.filter_cons, h1]
    by_cases hk : Kept opt b.1 = true
    · rw [if_pos hk, if_pos hk, List.map_cons, List.map_cons, ih, h1]
      congr 2
      funext v
      rw [h2, show 2 * Real.pi / 24 * mt = 2 * Real.pi * mt / 24 by ring]
    · rw [if_neg hk, if_neg hk, ih]

theorem rows_fst {c : MioWritten} {factor : Int → ℝ} {as : List ((Int × Int) × List (ℝ × ℝ))}
    {bs : List ((Int × Int) × List ℝ)} (h : List.Forall₂ (RowHolds c factor) as bs) : as.map Prod.fst = bs.map Prod.fst := by
  induction h with
  | nil => rfl
  | cons hab _ ih => rw [List.map_cons, List.map_cons, ih, hab.1]

theorem within_all (t : ℝ) : Spec.Within (X.ninf : X ℝ) .pinf (.fin t) :=
  ⟨_, _, _, rfl, rfl, rfl, bot_le, WithBot.coe_le_coe.mpr le_top⟩

theorem not_within_nan (s e : X ℝ) : ¬ Spec.Within s e .nan := by
  rintro ⟨_, _, _, -, -, h, -⟩
  cases h

/-- The set of coefficients with these entries. -/
noncomputable abbrev setOfRows (c : MioWritten) (as : List ((Int × Int) × List (ℝ × ℝ))) (int : Bool) : MioCoef ℝ :=
  ⟨as, (c.smax - c.smin + 1).toNat, (c.pmax - c.pmin + 1).toNat, c.pmin, c.smin, .ninf, .pinf, int⟩

theorem held_fst {c : MioWritten} {rows : List (List ℝ)} (hr : rows.length = c.nm.length) {factor : Int → ℝ}
    {as : List ((Int × Int) × List (ℝ × ℝ))} (has : List.Forall₂ (RowHolds c factor) as (c.nm.zip rows)) :
    as.map Prod.fst = c.nm := by
  rw [rows_fst has, List.map_fst_zip hr.ge]

theorem held_good {pf : List Char → Option ℝ} {file : List Line} {c : MioWritten} (h : MioFile pf file c)
    {rows : List (List ℝ)} (hr : rows.length = c.nm.length) {factor : Int → ℝ} {as : List ((Int × Int) × List (ℝ × ℝ))}
    (has : List.Forall₂ (RowHolds c factor) as (c.nm.zip rows)) (int : Bool) {opt : Options ℝ} {N : Nat}
    (hask : Askable c opt N) : GoodMio (setOfRows c as int) opt N := by
  have hfst := held_fst hr has
  refine ⟨?_, ?_, ?_, ?_, ?_, hask.one, hask.fits⟩
  · intro e he
    obtain ⟨k, hk, rfl⟩ := List.mem_iff_getElem.mp he
    have := (List.forall₂_iff_get.mp has).2 k hk (by rw [← has.length_eq]; exact hk)
    exact this.2.1
  · intro e he
    exact h.index _ (by rw [← hfst]; exact List.mem_map_of_mem he)
  · show (as.map Prod.fst).Nodup
    rw [hfst]
    exact h.nodup
  · have h1 := h.diurnal
    have h2 := h.seasonal
    have e1 : c.smin + ((c.smax - c.smin + 1).toNat : Int) - 1 = c.smax := by omega
    have e2 : c.pmin + ((c.pmax - c.pmin + 1).toNat : Int) - 1 = c.pmax := by omega
    show c.pmin.natAbs ≤ 1 ∨ _ ≤ _ ∨ _ ≤ (c.smin + ((c.smax - c.smin + 1).toNat : Int) - 1).natAbs ∨
      _ ≤ (c.pmin + ((c.pmax - c.pmin + 1).toNat : Int) - 1).natAbs
    rw [e1, e2]
    exact hask.degrees
  · show MaxDegree ((as.map Prod.fst).filter (Kept opt)) N
    rw [hfst]
    exact hask.degree

theorem held_at {c : MioWritten} {rows : List (List ℝ)} {factor : Int → ℝ} {as : List ((Int × Int) × List (ℝ × ℝ))}
    (has : List.Forall₂ (RowHolds c factor) as (c.nm.zip rows)) {int : Bool} {opt : Options ℝ} {N : Nat} {latN lonN : ℝ}
    {A : M3 ℝ} {i o : CT} {g : V3 ℝ} {tx : X ℝ} {F : Option (Option ℝ)} {la lo : Option ℝ} {x : V3 ℝ}
    {item : Fin 3 → Option (Option ℝ)}
    (hat : MioAt ⟨setOfRows c as int, latN, lonN, c.ratio⟩ A opt N i o g tx F la lo x item) :
    MioFieldAt (writtenEntries c rows factor opt) int c.ratio A N i o g tx F la lo x item := by
  obtain ⟨m1, m2⟩ := hat
  refine ⟨?_, ?_⟩
  · rintro (hn | hn)
    · exact m1 (.inl (by rw [hn]; exact not_within_nan _ _))
    · exact m1 (.inr hn)
  · intro t hte f hfe
    obtain ⟨t', ht', v, v1, v2⟩ := m2 (by rw [hte]; exact within_all t) f hfe
    rw [hte] at ht'
    cases ht'
    refine ⟨v, v1, fun hpos hpole => ?_⟩
    obtain ⟨latS, lonS, mt, q1, q2, q3⟩ := v2 hpos hpole
    refine ⟨latS, lonS, mt, q1, q2, ?_⟩
    have : mioEntries (setOfRows c as int) opt t mt = writtenEntries c rows factor opt t mt := rows_entries opt t mt has
    rw [← this]
    exact q3

/-- Models whose set of coefficients holds rows of the file evaluate to their field. -/
theorem held_evaluates {pf : List Char → Option ℝ} {file : List Line} {c : MioWritten} (h : MioFile pf file c)
    {rows : List (List ℝ)} (hr : rows.length = c.nm.length) {factor : Int → ℝ} {as : List ((Int × Int) × List (ℝ × ℝ))}
    (has : List.Forall₂ (RowHolds c factor) as (c.nm.zip rows)) (int : Bool) (lon : ℝ) :
    ∃ A, ToDipoleFrame (90 - c.theta) lon A ∧
      MioEvaluatesAs ⟨setOfRows c as int, 90 - c.theta, lon, c.ratio⟩ A c rows factor int := by
  refine ⟨_, frame_ok _ _, ?_⟩
  intro alloc ha junk hj junkX hjX junk2 year opt N hask time loc lt lead T P ht hx hp hT hl f107 F hf hf0 lat lon' LA LO hla
    hlo i o g hg
  obtain ⟨out, o1, o2, o3⟩ := eval_matrix ⟨setOfRows c as int, 90 - c.theta, lon, c.ratio⟩ alloc ha junk hj junkX hjX junk2
    year opt N (held_good h hr has int hask) time loc lt lead T P ht hx hp hT hl f107 F hf hf0 lat lon' LA LO hla hlo i o g hg
  exact ⟨out, o1, o2, fun idx hi => held_at has (o3 idx hi)⟩

/-- Even rows of the right size. -/
theorem mioRow_size {pf : List Char → Option ℝ} {file : List Line} {c : MioWritten} (h : MioFile pf file c) {r : List ℝ}
    (hr : r ∈ c.qs ++ c.gh) : r.length % 2 = 0 ∧
      (inPairs r).length = (c.smax - c.smin + 1).toNat * (c.pmax - c.pmin + 1).toNat := by
  have hs := h.size r hr
  have h1 := h.diurnal
  have h2 := h.seasonal
  obtain ⟨a, ha⟩ : ∃ a : Nat, c.smax - c.smin + 1 = a := ⟨(c.smax - c.smin + 1).toNat, by omega⟩
  obtain ⟨b, hb⟩ : ∃ b : Nat, c.pmax - c.pmin + 1 = b := ⟨(c.pmax - c.pmin + 1).toNat, by omega⟩
  rw [ha, hb] at hs ⊢
  have hs' : r.length = a * b * 2 := by exact_mod_cast hs
  rw [inPairs_length, hs']
  simp

theorem plain_rows {pf : List Char → Option ℝ} {file : List Line} {c : MioWritten} (h : MioFile pf file c)
    (rows : List (List ℝ)) (hr : rows.length = c.nm.length) (hm : ∀ r ∈ rows, r ∈ c.qs ++ c.gh) :
    List.Forall₂ (RowHolds c (fun _ => 1)) (c.nm.zip (rows.map inPairs)) (c.nm.zip rows) := by
  rw [List.forall₂_iff_get]
  refine ⟨by simp, ?_⟩
  intro k h1 h2
  have hk : k < rows.length := by simp at h2; omega
  obtain ⟨s1, s2⟩ := mioRow_size h (hm _ (List.getElem_mem hk))
  refine ⟨by simp, by simpa using s2, ?_⟩
  intro x y
  simp only [List.get_eq_getElem, List.getElem_zip, List.getElem_map, one_mul]
  exact rowSeries_eq h.diurnal h.seasonal _ s1 x y

/-- **C81**, the model of the induced (internal) field of any MIO file: the field of the second half of the rows.
What is missing: as for `C79_eval_partial`; the text of files with NaN or infinite values. -/
theorem C81_internal_partial {pf : List Char → Option ℝ} {file : List Line} {c : MioWritten} (h : MioFile pf file c) :
    ∃ lon m A, InRange c.phi lon ∧ loadModelInternal pf file = some m ∧ ToDipoleFrame (90 - c.theta) lon A ∧
      MioEvaluatesAs m A c c.gh (fun _ => 1) true := by
  obtain ⟨lon, hlon, hp⟩ := C53_parse pf file _ _ _ _ _ _ _ _ _ _ c.nm c.qs c.gh h.nonempty h.external h.internal h.text h.size
  obtain ⟨A, hA, he⟩ := held_evaluates h h.internal
    (plain_rows h c.gh h.internal (fun r hr => List.mem_append_right _ hr)) true lon
  refine ⟨lon, _, A, hlon, ?_, hA, he⟩
  unfold loadModelInternal loadCoeffInternal
  simp only [hp, Option.bind_eq_bind, Option.bind_some, newMioCoef_ok h _ (show (c.gh.map inPairs).length = _ by
    simp [h.internal])]
  rfl

theorem mioScale_shell (h : ℝ) {n : Int} (hn : 0 ≤ n) : Mio.mioScale h n.toNat = shellFactor h n := by
  obtain ⟨k, rfl⟩ := Int.eq_ofNat_of_zero_le hn
  unfold Mio.mioScale shellFactor
  have he : (Mio.earthRadius : ℝ) = 6371.2 := by norm_num [Mio.earthRadius]
  have hx : (6371.2 + h) / 6371.2 = 1 + h / 6371.2 := by field_simp
  rw [he, hx, Int.toNat_natCast]
  have : (2 * ((k : Nat) : Int) + 1) = ((2 * k + 1 : Nat) : Int) := by push_cast; ring
  simp only [this, zpow_natCast, Int.cast_natCast]
  rw [Odd.neg_pow (by simp)]
  ring

theorem converted_rows {pf : List Char → Option ℝ} {file : List Line} {c : MioWritten} (h : MioFile pf file c) {d : Nat}
    (hd : ∀ e ∈ c.nm, e.1 ≤ d) :
    ∃ out, Mio.convertExternal d c.nm (c.qs.map inPairs) c.height = some out ∧ out.length = c.nm.length ∧
      List.Forall₂ (RowHolds c (shellFactor c.height)) (c.nm.zip out) (c.nm.zip c.qs) := by
  have hpos : ∀ e ∈ c.nm, 0 ≤ e.1 := fun e he => le_trans (abs_nonneg _) (h.index e he)
  obtain ⟨out, o1, o2, o3⟩ := C43_rows d c.nm (c.qs.map inPairs) c.height (by simp [h.external])
    (fun e he => ⟨hpos e he, hd e he⟩)
  have hlen : out.length = c.nm.length := by rw [o2, List.length_map, h.external]
  refine ⟨out, o1, hlen, ?_⟩
  rw [List.forall₂_iff_get]
  refine ⟨by simp [hlen, h.external], ?_⟩
  intro k h1 h2
  have hk : k < c.nm.length := by simp at h2; omega
  have hq : k < c.qs.length := by rw [h.external]; exact hk
  have ho : k < out.length := by rw [hlen]; exact hk
  obtain ⟨s1, s2⟩ := mioRow_size h (List.mem_append_left _ (List.getElem_mem hq))
  have hrow := o3 k c.nm[k].1 c.nm[k].2 (inPairs c.qs[k]) (by simp [hk]) (by simp [hq])
  rw [List.getElem?_eq_getElem ho, Option.some_inj] at hrow
  rw [mioScale_shell _ (hpos _ (List.getElem_mem hk))] at hrow
  refine ⟨by simp, by simp [hrow, s2], ?_⟩
  intro x y
  simp only [List.get_eq_getElem, List.getElem_zip, hrow]
  rw [← rowSeries_eq h.diurnal h.seasonal _ s1 x y, ← fourierSum_scale]
  have key : ∀ j, ((inPairs c.qs[k]).map (fun ab : ℝ × ℝ => (shellFactor c.height c.nm[k].1 * ab.1,
      shellFactor c.height c.nm[k].1 * ab.2))).getD j (0, 0) = (shellFactor c.height c.nm[k].1 * ((inPairs c.qs[k]).getD j (0, 0)).1,
        shellFactor c.height c.nm[k].1 * ((inPairs c.qs[k]).getD j (0, 0)).2) := by
    intro j
    simp only [List.getD_eq_getElem?_getD, List.getElem?_map]
    cases (inPairs c.qs[k])[j]? <;> simp
  simp only [key]

/-- The coefficients of one layer. -/
theorem external_ok {pf : List Char → Option ℝ} {file : List Line} {c : MioWritten} (h : MioFile pf file c) {lon : ℝ}
    (above : Bool) : ∃ as, externalCoef ⟨⟨c.nmax, c.mmax, c.pmin, c.pmax, c.smin, c.smax, c.theta, c.phi, 90 - c.theta, lon,
        c.height, c.ratio⟩, c.nm.map (fun e => [e.1, e.2]), c.qs, c.gh⟩ above =
        some ⟨as, (c.smax - c.smin + 1).toNat, (c.pmax - c.pmin + 1).toNat, c.pmin, c.smin, .ninf, .pinf, above⟩ ∧
      List.Forall₂ (RowHolds c (if above then shellFactor c.height else fun _ => 1)) as (c.nm.zip c.qs) := by
  cases above with
  | false =>
    refine ⟨_, ?_, plain_rows h c.qs h.external (fun r hr => List.mem_append_left _ hr)⟩
    unfold externalCoef
    simp only [Bool.false_eq_true, if_false]
    exact newMioCoef_ok h _ (by simp [h.external]) false
  | true =>
    obtain ⟨d, d1, d2, d3⟩ := maxOf_some (l := c.nm.map Prod.fst) (by simpa using h.nonempty)
    obtain ⟨e, he, rfl⟩ := List.mem_map.mp d2
    have h0 : 0 ≤ e.1 := le_trans (abs_nonneg _) (h.index e he)
    obtain ⟨out, o1, o2, o3⟩ := converted_rows h (d := e.1.toNat) (fun x hx => by
      rw [Int.toNat_of_nonneg h0]
      exact d3 _ (List.mem_map_of_mem hx))
    refine ⟨_, ?_, o3⟩
    unfold externalCoef
    simp only [if_true, pairs_mapM, d1, Option.bind_eq_bind, Option.bind_some]
    rw [if_neg (by omega), o1]
    exact newMioCoef_ok h _ o2 true

/-- **C81**, one layer of the primary (external) field of any MIO file: below the ionosphere the field of the first half of the
rows with sources above, above the ionosphere the field of the converted coefficients with sources below.
What is missing: as for `C81_internal_partial`. -/
theorem C81_layer_partial {pf : List Char → Option ℝ} {file : List Line} {c : MioWritten} (h : MioFile pf file c)
    (above : Bool) :
    ∃ lon m A, InRange c.phi lon ∧ loadModelLayer pf file above = some m ∧ ToDipoleFrame (90 - c.theta) lon A ∧
      MioEvaluatesAs m A c c.qs (if above then shellFactor c.height else fun _ => 1) above := by
  obtain ⟨lon, hlon, hp⟩ := C53_parse pf file _ _ _ _ _ _ _ _ _ _ c.nm c.qs c.gh h.nonempty h.external h.internal h.text h.size
  obtain ⟨as, a1, a2⟩ := external_ok h (lon := lon) above
  obtain ⟨A, hA, he⟩ := held_evaluates h h.external a2 above lon
  refine ⟨lon, _, A, hlon, ?_, hA, he⟩
  unfold loadModelLayer
  simp only [hp, Option.bind_eq_bind, Option.bind_some, a1]
  rfl

/-- **C81**, the model of the whole primary field of any MIO file, on arrays: points at and below the ionosphere (the height of
the file above the radius 6371.2 km) get the field of the external coefficients, the others that of the converted ones; every
item of the result is set.
What is missing: as for `C79_primary_partial`. -/
theorem C81_primary_partial {pf : List Char → Option ℝ} {file : List Line} {c : MioWritten} (h : MioFile pf file c) :
    ∃ lon p A, InRange c.phi lon ∧ loadModelExternal pf file = some p ∧ ToDipoleFrame (90 - c.theta) lon A ∧
    ∀ (alloc : Nat → Mem ℝ), (∀ N, MemOk (alloc N) N) → ∀ (junk : Nat → List ℝ), (∀ n, (junk n).length = n) →
    ∀ (junkX : Nat → List (X ℝ)), (∀ n, (junkX n).length = n) → ∀ (junk2 : Nat → ℝ × ℝ) (year : Int) (opt : Options ℝ)
      (N : Nat), Askable c opt N →
      ∀ (time : NdArray (X ℝ)) (loc : NdArray ℝ) (lt lead : List Nat) (T : List Nat → X ℝ) (P : List Nat → V3 ℝ),
      ItemsOf time lt T → VectorsOf loc lead P → (lt = [] ∨ lt = lead) → lead.length ≤ 15 →
      (∀ idx, Index lt idx → T idx ≠ .ninf ∧ T idx ≠ .pinf) →
      ∀ (f107 : Option (NdArray (Option ℝ))) (F : List Nat → Option (Option ℝ)), OptItems f107 lead F →
      (lt = [] → ∀ f, f107 = some f → f.arr.dim = []) →
      ∀ (lat lon : Option (NdArray ℝ)) (LA LO : List Nat → Option ℝ), OptItems lat lead LA → OptItems lon lead LO →
      ∀ (i o : CT) (g : V3 ℝ), BroadScaleOf opt.scale g →
    ∃ rows, evalPrimary libm (mioEnv alloc junk junkX junk2 year) p.below p.above p.height p.radius time loc f107 lat lon
        (code i) (code o) opt = .ok (lead ++ [3], rows) ∧ rows.length = lead.prod ∧
      ∀ idx, Index lead idx → ∃ row x, rows[rank lead idx]? = some (some row) ∧ row.length = 3 ∧
        convert libm (P idx) (code i) 1 = some x ∧
        (x.z ≤ 6371.2 + c.height → MioFieldAt (writtenEntries c c.qs (fun _ => 1) opt) false c.ratio A N .spherical o g
          (T (idx.take lt.length)) (F idx) (LA idx) (LO idx) x (fun k => row[k.val]?)) ∧
        (6371.2 + c.height < x.z → MioFieldAt (writtenEntries c c.qs (shellFactor c.height) opt) true c.ratio A N .spherical o g
          (T (idx.take lt.length)) (F idx) (LA idx) (LO idx) x (fun k => row[k.val]?)) := by
  obtain ⟨lon, hlon, hp⟩ := C53_parse pf file _ _ _ _ _ _ _ _ _ _ c.nm c.qs c.gh h.nonempty h.external h.internal h.text h.size
  obtain ⟨bs, b1, b2⟩ := external_ok h (lon := lon) false
  obtain ⟨as, a1, a2⟩ := external_ok h (lon := lon) true
  refine ⟨lon, ⟨⟨setOfRows c bs false, 90 - c.theta, lon, c.ratio⟩, ⟨setOfRows c as true, 90 - c.theta, lon, c.ratio⟩, c.height,
    Mio.earthRadius⟩, _, hlon, ?_, frame_ok _ _, ?_⟩
  · unfold loadModelExternal
    simp only [hp, Option.bind_eq_bind, Option.bind_some, a1, b1]
    rfl
  · intro alloc ha junk hj junkX hjX junk2 year opt N hask time loc lt lead T P ht hx hp hl hT f107 F hf hf0 lat lon' LA LO hla
      hlo i o g hg
    obtain ⟨rows, r1, r2, r3⟩ := primary_matrix ⟨setOfRows c bs false, 90 - c.theta, lon, c.ratio⟩
      ⟨setOfRows c as true, 90 - c.theta, lon, c.ratio⟩ alloc ha junk hj junkX hjX junk2 year opt N N
      (held_good h h.external b2 false hask) (held_good h h.external a2 true hask) c.height Mio.earthRadius time loc lt lead T P ht
      hx hp hl hT f107 F hf hf0 lat lon' LA LO hla hlo i o g hg
    refine ⟨rows, r1, r2, ?_⟩
    intro idx hi
    obtain ⟨row, x, q1, q2, q3, q4, q5⟩ := r3 idx hi
    have he : (Mio.earthRadius : ℝ) = 6371.2 := by norm_num [Mio.earthRadius]
    rw [he] at q4 q5
    exact ⟨row, x, q1, q2, q3, fun hz => held_at b2 (q4 hz), fun hz => held_at a2 (q5 hz)⟩

/-- **C81**, the degrees and the validity of the model of the primary field: the largest and the least degree in the file, no
limit of the times. -/
theorem C81_degrees {pf : List Char → Option ℝ} {file : List Line} {c : MioWritten} (h : MioFile pf file c) :
    ∃ p lo hi, loadModelExternal pf file = some p ∧ p.degree = some hi ∧ p.minDegree = some lo ∧
      ((∃ e ∈ c.nm, e.1 = hi) ∧ ∀ e ∈ c.nm, e.1 ≤ hi) ∧ ((∃ e ∈ c.nm, e.1 = lo) ∧ ∀ e ∈ c.nm, lo ≤ e.1) ∧
      p.validity = (.ninf, .pinf) := by
  obtain ⟨lon, hlon, hp⟩ := C53_parse pf file _ _ _ _ _ _ _ _ _ _ c.nm c.qs c.gh h.nonempty h.external h.internal h.text h.size
  obtain ⟨bs, b1, b2⟩ := external_ok h (lon := lon) false
  obtain ⟨as, a1, a2⟩ := external_ok h (lon := lon) true
  obtain ⟨hi, d1, d2, d3⟩ := maxOf_some (l := c.nm.map Prod.fst) (by simpa using h.nonempty)
  obtain ⟨lo, m1, m2, m3⟩ := minOf_some (l := c.nm.map Prod.fst) (by simpa using h.nonempty)
  have eb : bs.map (fun e => e.1.1) = c.nm.map Prod.fst := by rw [← held_fst h.external b2, List.map_map]; rfl
  have ea : as.map (fun e => e.1.1) = c.nm.map Prod.fst := by rw [← held_fst h.external a2, List.map_map]; rfl
  refine ⟨⟨⟨setOfRows c bs false, 90 - c.theta, lon, c.ratio⟩, ⟨setOfRows c as true, 90 - c.theta, lon, c.ratio⟩, c.height,
    Mio.earthRadius⟩, lo, hi, ?_, ?_, ?_, ?_, ?_, ?_⟩
  · unfold loadModelExternal
    simp only [hp, Option.bind_eq_bind, Option.bind_some, a1, b1]
    rfl
  · simp [Primary.degree, coefDegree, ea, eb, d1]
  · simp [Primary.minDegree, coefMinDegree, ea, eb, m1]
  · exact ⟨List.mem_map.mp d2, fun e he => d3 _ (List.mem_map_of_mem he)⟩
  · exact ⟨List.mem_map.mp m2, fun e he => m3 _ (List.mem_map_of_mem he)⟩
  · simp [Primary.validity, pyMax, pyMin, X.lt]

/-! ### The radial field at the ionosphere -/

/-- Outward direction at the latitude and longitude (in degrees) of a point. -/
noncomputable def outward (x : V3 ℝ) : V3 ℝ := vrotSph2cart libm ⟨0, 0, 1⟩ x.x x.y

theorem inner_outward (w x : V3 ℝ) : inner3 (vrotSph2cart libm w x.x x.y) (outward x) = w.z := by
  have h1 := Real.sin_sq_add_cos_sq (dg2rad libm * x.x)
  have h2 := Real.sin_sq_add_cos_sq (dg2rad libm * x.y)
  have key : ∀ a b c d : ℝ, a ^ 2 + b ^ 2 = 1 → c ^ 2 + d ^ 2 = 1 →
      ((w.z * b - w.x * a) * d - w.y * c) * ((1 * b - 0 * a) * d - 0 * c) +
        ((w.z * b - w.x * a) * c + w.y * d) * ((1 * b - 0 * a) * c + 0 * d) + (w.z * a + w.x * b) * (1 * a + 0 * b) = w.z := by
    intro a b c d h1 h2
    linear_combination (w.z * b - w.x * a) * b * h2 + w.z * h1
  exact key _ _ _ _ h1 h2

theorem sphCart_outward (x : V3 ℝ) (s : ℝ) : convSphCart libm ⟨x.x, x.y, s⟩ = ⟨s * (outward x).x, s * (outward x).y, s * (outward x).z⟩ := by
  simp only [convSphCart, sph2cart, outward, vrotSph2cart, rot2d]
  refine V3.ext' ?_ ?_ ?_ <;> simp <;> ring

theorem dot_scale (s : ℝ) (u : V3 ℝ) (A : M3 ℝ) : dot ⟨s * u.x, s * u.y, s * u.z⟩ A =
    ⟨s * (dot u A).x, s * (dot u A).y, s * (dot u A).z⟩ := by
  refine V3.ext' ?_ ?_ ?_ <;> simp only [dot] <;> ring

theorem cartSph_ray {s : ℝ} (hs : 0 < s) (d : V3 ℝ) (hd : inner3 d d = 1) :
    convCartSph libm ⟨s * d.x, s * d.y, s * d.z⟩ = ⟨(convCartSph libm d).x, (convCartSph libm d).y, s⟩ := by
  have hn : d.x * d.x + d.y * d.y + d.z * d.z = 1 := hd
  have e1 : norm3d libm (s * d.x) (s * d.y) (s * d.z) = s := by
    show Real.sqrt _ = s
    rw [show s * d.x * (s * d.x) + s * d.y * (s * d.y) + s * d.z * (s * d.z) =
      s ^ 2 * (d.x * d.x + d.y * d.y + d.z * d.z) by ring, hn, mul_one, Real.sqrt_sq hs.le]
  have e2 : norm3d libm d.x d.y d.z = 1 := by
    show Real.sqrt _ = 1
    rw [hn, Real.sqrt_one]
  simp only [convCartSph, cart2sph, e1, e2]
  refine V3.ext' ?_ ?_ ?_
  · show Real.arcsin _ * _ = Real.arcsin _ * _
    rw [mul_div_cancel_left₀ _ hs.ne', div_one]
  · show Verif.Spec.atan2 _ _ * _ = Verif.Spec.atan2 _ _ * _
    rw [atan2_scale hs]
  · rfl

theorem radial_component {A : M3 ℝ} (hA : ∀ v w, inner3 (dot v A) (dot w A) = inner3 v w)
    {table : List ((Int × Int) × (ℝ → Prop))} {int : Bool} {N : Nat} {g x v : V3 ℝ} (hx : 0 < x.z)
    (h : DipoleField A table int N g .spherical .spherical x v) :
    ∃ rows d, Spec.TableOf N table rows ∧ v.z = -(d * g.z) ∧
      HasDerivAt (fun r => potential int 6371.2 N (coefG rows) (coefH rows) r
        ((convCartSph libm (dot (outward x) A)).x * (Real.pi / 180))
        ((convCartSph libm (dot (outward x) A)).y * (Real.pi / 180))) d x.z := by
  obtain ⟨rows, ht, U, c, r, w, hU, hc, hr, hv, hg⟩ := h
  have hc' : c = convSphCart libm x := (Option.some.inj hc).symm
  have hr' : r = x := (Option.some.inj hr).symm
  subst hr'
  refine ⟨rows, w.z, ht, by rw [hv], ?_⟩
  have hd := hg (fun s => convSphCart libm ⟨r.x, r.y, s⟩) (outward r) r.z hc'.symm (by
    simp only [sphCart_outward]
    refine ⟨?_, ?_, ?_⟩ <;> simpa using (hasDerivAt_id r.z).mul_const _)
  rw [show inner3 (toCart .spherical r w) (outward r) = w.z from inner_outward w r] at hd
  refine hd.congr_of_eventuallyEq ?_
  filter_upwards [lt_mem_nhds hx] with s hs
  have hone : inner3 (outward r) (outward r) = 1 := inner_outward ⟨0, 0, 1⟩ r
  have hs' := cartSph_ray hs (dot (outward r) A) (by rw [hA, hone])
  rw [hU _ ⟨(convCartSph libm (dot (outward r) A)).x, (convCartSph libm (dot (outward r) A)).y, s⟩ ?_ ?_]
  · rfl
  · rw [sphCart_outward]
    intro e
    have : inner3 (⟨s * (outward r).x, s * (outward r).y, s * (outward r).z⟩ : V3 ℝ) ⟨s * (outward r).x, s * (outward r).y,
      s * (outward r).z⟩ = s ^ 2 := by
      rw [show inner3 (⟨s * (outward r).x, s * (outward r).y, s * (outward r).z⟩ : V3 ℝ) ⟨s * (outward r).x, s * (outward r).y,
        s * (outward r).z⟩ = s ^ 2 * inner3 (outward r) (outward r) by simp only [inner3]; ring, hone, mul_one]
    rw [e] at this
    simp [inner3] at this
    exact (pow_pos hs 2).ne this
  · rw [sphCart_outward, dot_scale, ← hs']
    rfl

theorem coefG_cell (rows : List (ℝ × ℝ)) {n m : Nat} (hm : m ≤ n) : coefG rows n m = cell rows (coefRow n m) false := by
  have : coefRow (n : Int) (m : Int) = n * (n + 1) / 2 + m := by
    unfold coefRow
    rw [Nat.abs_cast, show (n : Int) * (n + 1) / 2 = ((n * (n + 1) / 2 : Nat) : Int) by push_cast; ring_nf]
    omega
  rw [this]
  unfold coefG cell
  cases rows[n * (n + 1) / 2 + m]? <;> simp

theorem coefH_cell (rows : List (ℝ × ℝ)) {n m : Nat} (hm : m ≤ n) : coefH rows n m = cell rows (coefRow n (-m)) true := by
  have : coefRow (n : Int) (-(m : Int)) = n * (n + 1) / 2 + m := by
    unfold coefRow
    rw [abs_neg, Nat.abs_cast, show (n : Int) * (n + 1) / 2 = ((n * (n + 1) / 2 : Nat) : Int) by push_cast; ring_nf]
    omega
  rw [this]
  unfold coefH cell
  cases rows[n * (n + 1) / 2 + m]? <;> simp

/-- Tables of the same rows with and without the factor of the degree. -/
theorem tables_factor {c : MioWritten} (hi : ∀ e ∈ c.nm, |e.2| ≤ e.1) {rows : List (List ℝ)} {factor : Int → ℝ}
    {opt : Options ℝ} {t mt : ℝ} {N : Nat} {a b : List (ℝ × ℝ)}
    (hb : Spec.TableOf N (writtenEntries c rows (fun _ => 1) opt t mt) b)
    (ha : Spec.TableOf N (writtenEntries c rows factor opt t mt) a) (n m : Int) (hnm : |m| ≤ n) :
    cell a (coefRow n m) (decide (m < 0)) = factor n * cell b (coefRow n m) (decide (m < 0)) := by
  by_cases hmem : ∃ row, ((n, m), row) ∈ (c.nm.zip rows).filter (fun e => Kept opt e.1)
  · obtain ⟨row, hrow⟩ := hmem
    have h1 := ha.vals _ (List.mem_map_of_mem hrow)
    have h2 := hb.vals _ (List.mem_map_of_mem hrow)
    simp only at h1 h2
    rw [h1, h2, one_mul]
  · have zero : ∀ (f : Int → ℝ) (r : List (ℝ × ℝ)), Spec.TableOf N (writtenEntries c rows f opt t mt) r →
        cell r (coefRow n m) (decide (m < 0)) = 0 := by
      intro f r hr
      refine hr.zero _ _ ?_
      intro e he hk
      obtain ⟨e', he', rfl⟩ := List.mem_map.mp he
      simp only at hk
      have hin : e'.1 ∈ c.nm := (List.of_mem_zip (show (e'.1, e'.2) ∈ c.nm.zip rows from (List.mem_filter.mp he').1)).1
      have hkey : ShEval.key (n, m) = ShEval.key e'.1 := by
        rw [key_coefRow, key_coefRow, ← hk.1, ← hk.2]
      have := ShEval.key_inj hnm (hi _ hin) hkey
      exact hmem ⟨e'.2, by rw [this]; exact he'⟩
    rw [zero _ _ ha, zero _ _ hb, mul_zero]

/-- **C81**, the model of the primary field of any MIO file has no jump of the radial component at the ionosphere: whatever the
direction, the time and the options, the fields of both layers (the values given by `C81_primary_partial` at and above the
ionosphere) have the same upward component at the radius of the ionosphere. -/
theorem C81_continuous {pf : List Char → Option ℝ} {file : List Line} {c : MioWritten} (h : MioFile pf file c)
    (hh : -6371.2 < c.height) {latN lonN : ℝ} {A : M3 ℝ} (hA : ToDipoleFrame latN lonN A) {opt : Options ℝ} {t mt : ℝ} {N : Nat}
    {g x v w : V3 ℝ} (hx : x.z = 6371.2 + c.height)
    (hv : DipoleField A (writtenEntries c c.qs (fun _ => 1) opt t mt) false N g .spherical .spherical x v)
    (hw : DipoleField A (writtenEntries c c.qs (shellFactor c.height) opt t mt) true N g .spherical .spherical x w) :
    v.z = w.z := by
  have hpos : 0 < x.z := by rw [hx]; linarith
  obtain ⟨b, d1, hb, e1, k1⟩ := radial_component hA.rigid hpos hv
  obtain ⟨a, d2, ha, e2, k2⟩ := radial_component hA.rigid hpos hw
  generalize (convCartSph libm (dot (outward x) A)).x * (Real.pi / 180) = φ at k1 k2
  generalize (convCartSph libm (dot (outward x) A)).y * (Real.pi / 180) = l at k1 k2
  obtain ⟨d, j1, j2⟩ := C43_potential c.height hh N (coefG b) (coefH b) φ l
  have same : (fun r => potential true 6371.2 N (coefG a) (coefH a) r φ l) = fun r => potential true 6371.2 N
      (fun n m => Mio.mioScale c.height n * coefG b n m) (fun n m => Mio.mioScale c.height n * coefH b n m) r φ l := by
    funext r
    unfold potential
    congr 1
    refine Finset.sum_congr rfl (fun n _ => ?_)
    congr 1
    refine Finset.sum_congr rfl (fun m hm => ?_)
    rw [Finset.mem_range] at hm
    have hs : Mio.mioScale c.height n = shellFactor c.height n := by
      have := mioScale_shell c.height (n := (n : Int)) (by omega)
      rwa [Int.toNat_natCast] at this
    have c1 : coefG a n m = Mio.mioScale c.height n * coefG b n m := by
      have := tables_factor h.index hb ha n m (by rw [Nat.abs_cast]; omega)
      rw [show decide ((m : Int) < 0) = false by simp] at this
      rw [coefG_cell a (by omega), coefG_cell b (by omega), hs, this]
    rw [c1]
    rcases Nat.eq_zero_or_pos m with h0 | h0
    · subst h0
      simp
    · have := tables_factor h.index hb ha n (-m) (by rw [abs_neg, Nat.abs_cast]; omega)
      rw [show decide (-(m : Int) < 0) = true by simp [h0]] at this
      have c2 : coefH a n m = Mio.mioScale c.height n * coefH b n m := by
        rw [coefH_cell a (by omega), coefH_cell b (by omega), hs, this]
      rw [c2]
  rw [same, hx] at k2
  rw [hx] at k1
  rw [e1, e2, k1.unique j2, k2.unique j1]

/-! ### Concrete cases -/

/-- Parser of whole numbers. -/
noncomputable def pfWhole (s : List Char) : Option ℝ := (parseInt s).map (fun z : Int => (z : ℝ))

theorem pfWhole_of {s : List Char} {z : Int} {v : ℝ} (h : parseInt s = some z) (hv : (z : ℝ) = v) : pfWhole s = some v := by
  unfold pfWhole
  rw [h, ← hv]
  rfl

/-- A file with the degree 1, the orders 0 and -1, and two diurnal wave numbers. -/
def sampleMio : List Line := ["# comment".toList, "1 1 0 1 0 0 10 285 110 2".toList, "1 0 3 4 5 6".toList,
  "1 -1 7 8 9 0".toList, "1 0 1 2 1 2".toList, "1 -1 2 1 2 1".toList]

/-- Its content. -/
noncomputable def sampleWritten : MioWritten :=
  ⟨1, 1, 0, 1, 0, 0, 10, 285, 110, 2, [(1, 0), (1, -1)], [[3, 4, 5, 6], [7, 8, 9, 0]], [[1, 2, 1, 2], [2, 1, 2, 1]]⟩

theorem sampleMio_file : MioFile pfWhole sampleMio sampleWritten := by
  refine ⟨?_, by simp [sampleWritten], by simp [sampleWritten], by simp [sampleWritten], by simp [sampleWritten],
    by simp [sampleWritten], by simp [sampleWritten], by simp [sampleWritten], by simp [sampleWritten]⟩
  refine ⟨["# comment".toList], _, ["1".toList, "1".toList, "0".toList, "1".toList, "0".toList, "0".toList, "10".toList,
    "285".toList, "110".toList, "2".toList], _, rfl, ?_, ?_, ?_, ?_⟩
  · intro l hl
    rw [List.mem_singleton] at hl
    exact ⟨[], _, hl, by simp, by decide⟩
  · exact ⟨_, [], (List.append_nil _).symm, by decide, (split_iff _ _).mp (by decide), by simp⟩
  · exact ⟨_, _, _, _, _, _, _, _, _, _, _, rfl, posText _ 1, posText _ 1, posText _ 0, posText _ 1, posText _ 0, posText _ 0,
      pfWhole_of (z := 10) (by decide +kernel) (by norm_num [sampleWritten]),
      pfWhole_of (z := 285) (by decide +kernel) (by norm_num [sampleWritten]),
      pfWhole_of (z := 110) (by decide +kernel) (by norm_num [sampleWritten]),
      pfWhole_of (z := 2) (by decide +kernel) (by norm_num [sampleWritten])⟩
  · refine .cons ⟨['1'], ['0'], [['3'], ['4'], ['5'], ['6']], (split_iff _ _).mp (by decide), posText _ 1, posText _ 0, ?_⟩
      (.cons ⟨['1'], ['-', '1'], [['7'], ['8'], ['9'], ['0']], (split_iff _ _).mp (by decide), posText _ 1, negText _ 1, ?_⟩
      (.cons ⟨['1'], ['0'], [['1'], ['2'], ['1'], ['2']], (split_iff _ _).mp (by decide), posText _ 1, posText _ 0, ?_⟩
      (.cons ⟨['1'], ['-', '1'], [['2'], ['1'], ['2'], ['1']], (split_iff _ _).mp (by decide), posText _ 1, negText _ 1, ?_⟩
        .nil)))
    · exact .cons (pfWhole_of (z := 3) (by decide +kernel) (by norm_num)) (.cons (pfWhole_of (z := 4) (by decide +kernel)
        (by norm_num)) (.cons (pfWhole_of (z := 5) (by decide +kernel) (by norm_num)) (.cons (pfWhole_of (z := 6)
        (by decide +kernel) (by norm_num)) .nil)))
    · exact .cons (pfWhole_of (z := 7) (by decide +kernel) (by norm_num)) (.cons (pfWhole_of (z := 8) (by decide +kernel)
        (by norm_num)) (.cons (pfWhole_of (z := 9) (by decide +kernel) (by norm_num)) (.cons (pfWhole_of (z := 0)
        (by decide +kernel) (by norm_num)) .nil)))
    · exact .cons (pfWhole_of (z := 1) (by decide +kernel) (by norm_num)) (.cons (pfWhole_of (z := 2) (by decide +kernel)
        (by norm_num)) (.cons (pfWhole_of (z := 1) (by decide +kernel) (by norm_num)) (.cons (pfWhole_of (z := 2)
        (by decide +kernel) (by norm_num)) .nil)))
    · exact .cons (pfWhole_of (z := 2) (by decide +kernel) (by norm_num)) (.cons (pfWhole_of (z := 1) (by decide +kernel)
        (by norm_num)) (.cons (pfWhole_of (z := 2) (by decide +kernel) (by norm_num)) (.cons (pfWhole_of (z := 1)
        (by decide +kernel) (by norm_num)) .nil)))

/-- All degrees can be asked for. -/
example : Askable sampleWritten ⟨-1, -1, .default⟩ 1 :=
  ⟨.inl (by simp [sampleWritten]), by simp [sampleWritten, MaxDegree, Kept], le_rfl, by norm_num [ncoef]⟩

/-- The second row of the external coefficients at the season `x` and the hour `y`. -/
example (x y : ℝ) : rowSeries sampleWritten [7, 8, 9, 0] x y = 7 + 9 * Real.cos y := by
  have e : Finset.Icc (0 : Int) 1 = {0, 1} := by decide
  simp [rowSeries, sampleWritten, e]

/-- Factor of the degree 1 for an ionosphere at 637.12 km. -/
example : shellFactor 637.12 1 = -0.6655 := by
  norm_num [shellFactor]

/-- What is loaded from the file: pole, coefficients below and above the ionosphere. -/
example : (match loadModelExternal pfQ sampleMio with
    | some p => p.below.coef.entries == [((1, 0), [(3, 4), (5, 6)]), ((1, -1), [(7, 8), (9, 0)])] && p.above.coef.isInternal &&
        !p.below.coef.isInternal && p.above.latNgp == 80 && p.above.lonNgp == -75 && p.height == 110 && p.above.wolf == 2 &&
        p.above.coef.entries.map (fun e => e.2.map (fun ab => ab.1 / Mio.mioScale 110 1)) == [[3, 5], [7, 9]] &&
        p.degree == some 1 && p.minDegree == some 1
    | none => false) = true := by
  decide +kernel

end Verif.Props
