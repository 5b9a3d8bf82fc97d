/-
C44, C53: loading of SHC files, from the parsed data to the evaluated coefficients, and MIO files.
-/
import Verif.Props.Parsers
import Verif.Props.Time
import Mathlib.Algebra.Order.Round

set_option linter.unusedSectionVars false

namespace Verif.Props

open Verif.Parsers Verif.Spec.Text Verif.Coeffs

section load
variable {K : Type} [Field K] [LinearOrder K] [IsStrictOrderedRing K]

open Verif.Interp Verif.Spec

theorem toPairs_rows {V : Type} (rows : List ((Int × Int) × V)) :
    toPairs (rows.map (fun r => [r.1.1, r.1.2])) = some (rows.map Prod.fst) := by
  unfold toPairs
  induction rows with
  | nil => rfl
  | cons r l ih => rw [List.map_cons, List.mapM_cons, ih]; rfl

theorem mergeSort_congr {A : Type} (l : List A) (f g : A → A → Bool)
    (h : ∀ a ∈ l, ∀ b ∈ l, f a b = g a b) : l.mergeSort f = l.mergeSort g := by
  have := List.map_mergeSort (r := f) (s := g) (f := id) (l := l) (by simpa using h)
  simpa using this

/-- Times converted by a strictly increasing function are sorted in the same way. -/
theorem argsort_conv (ts : List K) (c : K → K) (hc : ∀ a ∈ ts, ∀ b ∈ ts, a < b → c a < c b) :
    argsort ((ts.map c).map X.fin) = argsort (ts.map X.fin) := by
  unfold argsort
  simp only [List.length_map]
  apply mergeSort_congr
  intro i hi j hj
  rw [List.mem_range] at hi hj
  simp only [List.getD_eq_getElem?_getD, List.getElem?_map, List.getElem?_eq_getElem hi, List.getElem?_eq_getElem hj,
    Option.map_some, Option.getD_some, X.le]
  have : c ts[i] ≤ c ts[j] ↔ ts[i] ≤ ts[j] := by
    constructor
    · intro h
      by_contra hlt
      exact absurd (hc _ (List.getElem_mem _) _ (List.getElem_mem _) (not_le.mp hlt)) (not_lt.mpr h)
    · intro h
      rcases h.eq_or_lt with h | h
      · rw [h]
      · exact (hc _ (List.getElem_mem _) _ (List.getElem_mem _) h).le
  simp [this]

/-- The loaded coefficients are the ones constructed with the converted times. -/
theorem loadShc_conv (rows : List ((Int × Int) × List K)) (ts : List K) (c : K → K) (toMjd : X K → X K)
    (hto : ∀ a, toMjd (.fin a) = .fin (c a)) (hc : ∀ a ∈ ts, ∀ b ∈ ts, a < b → c a < c b) (so : Int)
    (h2 : 2 ≤ ts.length) :
    loadShc toMjd false (ts.map X.fin) so (rows.map (fun r => [r.1.1, r.1.2]))
        ((rows.map Prod.snd).map (·.map X.fin)) =
      mkTimeDep (rows.map Prod.fst) ((rows.map Prod.snd).map (·.map X.fin)) ((ts.map c).map X.fin) 2 := by
  unfold loadShc
  rw [toPairs_rows]
  simp only [Option.bind_eq_bind, Option.bind_some, List.length_map]
  rw [if_neg (by omega)]
  unfold mkTimeDep
  rw [argsort_conv ts c hc]
  simp only [List.length_map]
  split
  · rfl
  · split
    · rfl
    · simp only [Int.reduceEq, if_false, if_true, Option.bind_some, Option.pure_def, Option.some.injEq,
        Bool.false_eq_true, TimeDep.mk.injEq, and_true, List.map_map]
      apply List.map_congr_left
      intro i hi
      have hi' : i < ts.length := by
        have := (List.mergeSort_perm _ _).mem_iff.mp hi
        simpa using this
      simp [hi', hto, List.getD_eq_getElem?_getD]

/-- **C44**, evaluation of loaded SHC coefficients.  The parsed times `ts` (decimal years, in any
order) and rows give coefficients whose value at any MJD2000 `a` lies on the line through the
neighbouring nodes in MJD2000 — whatever the spline order of the file, which is the part of the
claim that fails. -/
theorem C44_load_partial [FloorRing K] (rows : List ((Int × Int) × List K)) (ts : List K) (hnd : ts.Nodup)
    (hy : ∀ y ∈ ts, 1583 ≤ y) (hr : ∀ r ∈ rows, r.2.length = ts.length) (hn : ts.length < 2 ^ 64)
    (h2 : 2 ≤ ts.length) (hne : rows ≠ []) (hv : ∀ r ∈ rows, |r.1.2| ≤ r.1.1)
    (hndm : (rows.map Prod.fst).Nodup) (so : Int) :
    ∃ td, loadShc Verif.Time.decimalYearToMjd2kX false (ts.map X.fin) so (rows.map (fun r => [r.1.1, r.1.2]))
        ((rows.map Prod.snd).map (·.map X.fin)) = some td ∧
      ∀ (a : K) j k (hs : Segment (ts.map Verif.Time.decimalYearToMjd2k) a j k),
      ∃ tab d, callSingle td id (-1) (-1) (.fin a) = some (tab, d) ∧
        (∀ r ∈ rows, ∃ vj vk yj yk, r.2[j]? = some vj ∧ r.2[k]? = some vk ∧ ts[j]? = some yj ∧ ts[k]? = some yk ∧
          cell tab (place r.1.1 r.1.2) (decide (r.1.2 < 0)) =
            .fin (line (Verif.Time.decimalYearToMjd2k yj) vj (Verif.Time.decimalYearToMjd2k yk) vk a)) ∧
        (∀ (i : Nat) c, (∀ r ∈ rows, ¬ (i = place r.1.1 r.1.2 ∧ c = decide (r.1.2 < 0))) → cell tab i c = .fin 0) := by
  have hmono : ∀ a ∈ ts, ∀ b ∈ ts, a < b → Verif.Time.decimalYearToMjd2k a < Verif.Time.decimalYearToMjd2k b := by
    intro a ha b hb hab
    refine C08_monotone_partial a b ?_ hab ?_
    · have := hy a ha; linarith
    · rintro ⟨-, h, -⟩
      exact absurd (hy a ha) (not_le.mpr h)
  have hinj : (ts.map Verif.Time.decimalYearToMjd2k).Nodup := by
    refine (List.nodup_map_iff_inj_on hnd).mpr ?_
    intro a ha b hb hab
    rcases lt_trichotomy a b with h | h | h
    · exact absurd hab (hmono a ha b hb h).ne
    · exact h
    · exact absurd hab (hmono b hb a ha h).ne'
  rw [loadShc_conv rows ts _ _ (fun _ => rfl) hmono so h2]
  obtain ⟨td, h1, h3⟩ := timeDep_table (rows.map Prod.fst) (rows.map Prod.snd) (ts.map Verif.Time.decimalYearToMjd2k)
    hinj (by simp) (by
      intro row hrow
      obtain ⟨r, hr', rfl⟩ := List.mem_map.mp hrow
      rw [List.length_map]; exact hr r hr') (by simpa using hn) (by simpa using h2) (by simpa using hne) (by
      intro e he
      obtain ⟨r, hr', rfl⟩ := List.mem_map.mp he
      exact hv r hr') hndm
  refine ⟨td, h1, ?_⟩
  intro a j k hs
  obtain ⟨tab, d, g1, g2, g3⟩ := h3 id (.fin a) a rfl j k hs
  refine ⟨tab, d, g1, ?_, ?_⟩
  · intro r hr'
    obtain ⟨i, hi, rfl⟩ := List.getElem_of_mem hr'
    have hj : j < ts.length := by simpa using hs.hj
    have hk : k < ts.length := by simpa using hs.hk
    have hl := hr _ hr'
    have := g2 i (by simpa using hi)
    refine ⟨rows[i].2[j], rows[i].2[k], ts[j], ts[k], by simp [hl, hj], by simp [hl, hk], by simp [hj], by simp [hk], ?_⟩
    simpa using this
  · intro i c h
    refine g3 i c ?_
    intro e he
    obtain ⟨r, hr', rfl⟩ := List.mem_map.mp he
    exact h r hr'

/-- **C44**, the same with the interpolation in decimal years: the nodes stay, the time of the
evaluation is converted. -/
theorem C44_load_years_partial [FloorRing K] (rows : List ((Int × Int) × List K)) (ts : List K) (hnd : ts.Nodup)
    (hr : ∀ r ∈ rows, r.2.length = ts.length) (hn : ts.length < 2 ^ 64)
    (h2 : 2 ≤ ts.length) (hne : rows ≠ []) (hv : ∀ r ∈ rows, |r.1.2| ≤ r.1.1)
    (hndm : (rows.map Prod.fst).Nodup) (so junk : Int) :
    ∃ td, loadShc Verif.Time.decimalYearToMjd2kX true (ts.map X.fin) so (rows.map (fun r => [r.1.1, r.1.2]))
        ((rows.map Prod.snd).map (·.map X.fin)) = some td ∧
      ∀ (a : K) j k (hs : Segment ts (Verif.Time.mjd2kToDecimalYear a) j k),
      ∃ tab d, callSingle td (Verif.Time.mjd2kToDecimalYearX junk) (-1) (-1) (.fin a) = some (tab, d) ∧
        (∀ r ∈ rows, ∃ vj vk yj yk, r.2[j]? = some vj ∧ r.2[k]? = some vk ∧ ts[j]? = some yj ∧ ts[k]? = some yk ∧
          cell tab (place r.1.1 r.1.2) (decide (r.1.2 < 0)) =
            .fin (line yj vj yk vk (Verif.Time.mjd2kToDecimalYear a))) ∧
        (∀ (i : Nat) c, (∀ r ∈ rows, ¬ (i = place r.1.1 r.1.2 ∧ c = decide (r.1.2 < 0))) → cell tab i c = .fin 0) := by
  obtain ⟨td, h1, h3⟩ := timeDep_table (rows.map Prod.fst) (rows.map Prod.snd) ts
    hnd (by simp) (by
      intro row hrow
      obtain ⟨r, hr', rfl⟩ := List.mem_map.mp hrow
      exact hr r hr') hn h2 (by simpa using hne) (by
      intro e he
      obtain ⟨r, hr', rfl⟩ := List.mem_map.mp he
      exact hv r hr') hndm
  refine ⟨td, ?_, ?_⟩
  · unfold loadShc
    rw [toPairs_rows]
    simp only [Option.bind_eq_bind, Option.bind_some, List.length_map]
    rw [if_neg (by omega), h1]
    rfl
  intro a j k hs
  obtain ⟨tab, d, g1, g2, g3⟩ := h3 (Verif.Time.mjd2kToDecimalYearX junk) (.fin a) _ rfl j k hs
  refine ⟨tab, d, g1, ?_, ?_⟩
  · intro r hr'
    obtain ⟨i, hi, rfl⟩ := List.getElem_of_mem hr'
    have hj : j < ts.length := hs.hj
    have hk : k < ts.length := hs.hk
    have hl := hr _ hr'
    have := g2 i (by simpa using hi)
    refine ⟨rows[i].2[j], rows[i].2[k], ts[j], ts[k], by simp [hl, hj], by simp [hl, hk], by simp [hj], by simp [hk], ?_⟩
    simpa using this
  · intro i c h
    refine g3 i c ?_
    intro e he
    obtain ⟨r, hr', rfl⟩ := List.mem_map.mp he
    exact h r hr'

/-- **C44**, disagreement: the spline order of the file is ignored, the interpolation is always
linear.  A file with the order 1 (constant between the nodes) of the values 0 and 2 in two
consecutive years is evaluated to 1 in the middle. -/
theorem C44_spline_order_ignored [FloorRing K] (decimalYears : Bool) (toMjd : X K → X K) (t : List (X K)) (so : Int)
    (nm : List (List Int)) (gh : List (List (X K))) (h2 : 2 ≤ t.length) (td : TimeDep K)
    (h : loadShc toMjd decimalYears t so nm gh = some td) :
    td.kind = .c1 ∧ ∀ so', loadShc toMjd decimalYears t so' nm gh = some td := by
  refine ⟨?_, fun _ => h⟩
  unfold loadShc at h
  cases hp : toPairs nm with
  | none => simp [hp] at h
  | some p =>
    simp only [hp, Option.bind_eq_bind, Option.bind_some] at h
    rw [if_neg (by omega)] at h
    have hk : ∀ x, mkTimeDep p gh t 2 = some x → x.kind = .c1 := by
      intro x hx
      unfold mkTimeDep at hx
      split at hx
      · cases hx
      · split at hx
        · cases hx
        · simp only [Int.reduceEq, if_false, if_true, Option.some.injEq] at hx
          rw [← hx]
    cases hm : mkTimeDep p gh t 2 with
    | none => simp [hm] at h
    | some x =>
      rw [hm, Option.bind_some] at h
      have := hk x hm
      cases decimalYears <;> simp at h <;> rw [← h] <;> exact this

/-- **C44**, files with a single time: constant coefficients, the same at every time, whatever the
time in the file. -/
theorem C44_load_constant [FloorRing K] (rows : List ((Int × Int) × K)) (t0 : X K) (decimalYears : Bool)
    (hne : rows ≠ []) (hv : ∀ r ∈ rows, |r.1.2| ≤ r.1.1) (hndm : (rows.map Prod.fst).Nodup) (so : Int) :
    ∃ td, loadShc Verif.Time.decimalYearToMjd2kX decimalYears [t0] so (rows.map (fun r => [r.1.1, r.1.2]))
        (rows.map (fun r => [X.fin r.2])) = some td ∧
      ∀ t : X K, t ≠ .nan → ∃ tab d, callSingle td id (-1) (-1) t = some (tab, d) ∧
        (∀ r ∈ rows, cell tab (place r.1.1 r.1.2) (decide (r.1.2 < 0)) = .fin r.2) ∧
        (∀ (i : Nat) c, (∀ r ∈ rows, ¬ (i = place r.1.1 r.1.2 ∧ c = decide (r.1.2 < 0))) → cell tab i c = .fin 0) := by
  have hm : (rows.map (fun r => [X.fin r.2])).mapM (fun r : List (X K) => r[0]?) = some (rows.map (fun r => X.fin r.2)) := by
    clear hne hv hndm
    induction rows with
    | nil => rfl
    | cons r l ih => rw [List.map_cons, List.mapM_cons, ih]; rfl
  obtain ⟨c1, c2⟩ := C12_constant (rows.map Prod.fst) (rows.map (fun r => X.fin r.2)) (by simp)
  have hl : loadShc Verif.Time.decimalYearToMjd2kX decimalYears [t0] so (rows.map (fun r => [r.1.1, r.1.2]))
      (rows.map (fun r => [X.fin r.2])) = some ⟨[.ninf], (rows.map Prod.fst).zip ((rows.map (fun r => X.fin r.2)).map (fun c => [c])), .c0⟩ := by
    unfold loadShc
    rw [toPairs_rows]
    simp only [Option.bind_eq_bind, Option.bind_some, List.length_singleton, if_true, hm, c1]
    rfl
  refine ⟨_, hl, fun t ht => ?_⟩
  set td : TimeDep K := ⟨[.ninf], (rows.map Prod.fst).zip ((rows.map (fun r => X.fin r.2)).map (fun c => [c])), .c0⟩ with htd
  have hent : td.entries = rows.map (fun r => (r.1, [X.fin r.2])) := by
    rw [htd]
    simp only [List.map_map]
    rw [List.zip_map']
    rfl
  have hfst : td.entries.map Prod.fst = rows.map Prod.fst := by rw [hent, List.map_map]; rfl
  obtain ⟨tab, h1, -, h3, h4⟩ := C11_evaluated td id (-1) (-1) t (fun c => c.headD .nan)
    (by rw [hent]; simpa using hne)
    (by
      intro e he
      rw [hent] at he
      obtain ⟨r, hr, rfl⟩ := List.mem_map.mp he
      exact hv r hr)
    (by rw [hfst]; exact hndm)
    (by
      intro e he
      rw [hent] at he
      obtain ⟨r, hr, rfl⟩ := List.mem_map.mp he
      exact c2 t ht _)
  refine ⟨tab, _, h1, ?_, ?_⟩
  · intro r hr
    have := h3 r.1.1 r.1.2 [X.fin r.2] (by rw [hent]; exact List.mem_map.mpr ⟨r, hr, rfl⟩) (Or.inl (by decide)) (Or.inl (by decide))
    exact this
  · intro i c h
    refine h4 i c ?_
    intro n m s hs _ _ hrc
    rw [hent] at hs
    obtain ⟨r, hr, he⟩ := List.mem_map.mp hs
    obtain ⟨e1, e2⟩ := Prod.mk.inj he
    have e11 : r.1.1 = n := by rw [e1]
    have e12 : r.1.2 = m := by rw [e1]
    refine h r hr ⟨?_, by rw [e12]; exact hrc.2⟩
    rw [e11, e12]
    show i = (n * (n + 1) / 2 + |m|).toNat
    omega

end load

/-- **C44**, disagreement: a header with the start of the validity but without its end (six fields) is
not readable. -/
theorem C44_six_fields {F : Type} [LinearOrder F] [BoundedOrder F] (pf : List Char → Option F) (pre : List Line)
    (hl : Line) (hfs : List (List Char)) (hpre : ∀ l ∈ pre, CommentLine l) (hcf : CommentedFields hfs hl)
    (h6 : hfs.length = 6) (rest : List Line) : parseShc pf (pre ++ hl :: rest) = none := by
  match hfs, h6 with
  | [a, b, c, d, e, f], _ =>
    obtain ⟨s, hs, hsplit⟩ := stripComments_header hcf rest
    have hh : shcHeaderLine pf s = none := by
      unfold shcHeaderLine
      simp only [hsplit, List.getElem?_cons_zero, List.getElem?_cons_succ, List.getElem?_nil, Option.bind_eq_bind,
        Option.bind_some, Option.bind_none, Option.bind_fun_none, List.drop_succ_cons, List.drop_zero, List.take_succ_cons,
        List.isEmpty_cons, Bool.false_eq_true, if_false]
    unfold parseShc
    rw [stripComments_prelude pre hpre, hs]
    cases rest with
    | nil => rfl
    | cons t r => simp [hh]

/-! ### MIO files -/

section mio
variable {K : Type} [Field K] [LinearOrder K] [IsStrictOrderedRing K] [FloorRing K]

/-- Fields of the header of a MIO file: six integers, colatitude and longitude of the pole, height,
ratio (and anything else). -/
def MioHead (pf : List Char → Option K) (fs : List (List Char)) (nmax mmax pmin pmax smin smax : Int)
    (theta phi height ratio : K) : Prop :=
  ∃ a b c d e f t p h w more, fs = a :: b :: c :: d :: e :: f :: t :: p :: h :: w :: more ∧
    IntText a nmax ∧ IntText b mmax ∧ IntText c pmin ∧ IntText d pmax ∧ IntText e smin ∧ IntText f smax ∧
    pf t = some theta ∧ pf p = some phi ∧ pf h = some height ∧ pf w = some ratio

/-- Longitude brought to (-180, 180]. -/
def InRange (phi lon : K) : Prop := -180 < lon ∧ lon ≤ 180 ∧ ∃ k : Int, lon = phi + 360 * k

/-- The range holds exactly one such value. -/
theorem inRange_unique {phi l1 l2 : K} (h1 : InRange phi l1) (h2 : InRange phi l2) : l1 = l2 := by
  obtain ⟨a1, b1, k1, e1⟩ := h1
  obtain ⟨a2, b2, k2, e2⟩ := h2
  have h : l1 - l2 = 360 * ((k1 - k2 : Int) : K) := by rw [e1, e2]; push_cast; ring
  have hk : k1 - k2 = 0 := by
    have u : ((k1 - k2 : Int) : K) < 1 := by linarith
    have l : (-1 : K) < ((k1 - k2 : Int) : K) := by linarith
    have u' : k1 - k2 < 1 := by exact_mod_cast u
    have l' : -1 < k1 - k2 := by exact_mod_cast l
    omega
  rw [hk] at h
  simp at h
  linarith

theorem mioHeader_text {pf : List Char → Option K} {fs : List (List Char)} {nmax mmax pmin pmax smin smax : Int}
    {theta phi height ratio : K} (h : MioHead pf fs nmax mmax pmin pmax smin smax theta phi height ratio)
    {l : Line} (hl : split l = fs) :
    ∃ lon, InRange phi lon ∧ mioHeader pf l = some ⟨nmax, mmax, pmin, pmax, smin, smax, theta, phi, 90 - theta, lon,
      height, ratio⟩ := by
  obtain ⟨a, b, c, d, e, f, t, p, hh, w, more, rfl, h1, h2, h3, h4, h5, h6, h7, h8, h9, h10⟩ := h
  refine ⟨180 - pyMod (180 - phi) 360, ?_, ?_⟩
  · have f1 := Int.floor_le ((180 - phi) / 360)
    have f2 := Int.lt_floor_add_one ((180 - phi) / 360)
    rw [le_div_iff₀ (by norm_num)] at f1
    rw [div_lt_iff₀ (by norm_num)] at f2
    unfold pyMod
    refine ⟨by linarith, by linarith, ⌊(180 - phi) / 360⌋, by ring⟩
  · unfold mioHeader
    simp [hl, parseInt_text h1, parseInt_text h2, parseInt_text h3, parseInt_text h4, parseInt_text h5,
      parseInt_text h6, h7, h8, h9, h10]

/-- The text of a MIO file: comments, header, external and internal coefficients. -/
structure MioText (pf : List Char → Option K) (file : List Line) (nmax mmax pmin pmax smin smax : Int)
    (theta phi height ratio : K) (rows : List ((Int × Int) × List K)) : Prop where
  text : ∃ pre hl hfs rl, file = pre ++ hl :: rl ∧ (∀ l ∈ pre, CommentLine l) ∧
    CommentedFields hfs hl ∧ MioHead pf hfs nmax mmax pmin pmax smin smax theta phi height ratio ∧
    List.Forall₂ (RowText pf) rl rows

theorem parseMio_text {pf : List Char → Option K} {file : List Line} {nmax mmax pmin pmax smin smax : Int}
    {theta phi height ratio : K} {rows : List ((Int × Int) × List K)}
    (h : MioText pf file nmax mmax pmin pmax smin smax theta phi height ratio rows) (n : Nat)
    (hn : ∀ r ∈ rows, r.2.length = n) :
    ∃ lon, InRange phi lon ∧ parseMio pf file =
      let nm := rows.map (fun r => [r.1.1, r.1.2])
      let size := rows.length / 2
      if (rows.map Prod.snd).any (fun r => decide ((r.length : Int) ≠ (smax - smin + 1) * (pmax - pmin + 1) * 2)) then none
      else if !halvesMatch (nm.take size) (nm.drop size) ∨ size = 0 then none
      else some ⟨⟨nmax, mmax, pmin, pmax, smin, smax, theta, phi, 90 - theta, lon, height, ratio⟩,
        nm.take size, (rows.map Prod.snd).take size, (rows.map Prod.snd).drop size⟩ := by
  obtain ⟨pre, hl, hfs, rl, rfl, hpre, hcf, hht, hrows⟩ := h.text
  obtain ⟨f0, fs0, rfl⟩ : ∃ a l, hfs = a :: l := by
    obtain ⟨a, b, c, d, e, f, t, p, hh, w, more, rfl, -⟩ := hht; exact ⟨_, _, rfl⟩
  obtain ⟨s, hs, hsplit⟩ := stripComments_header hcf rl
  obtain ⟨lon, hlon, hhd⟩ := mioHeader_text hht hsplit
  refine ⟨lon, hlon, ?_⟩
  unfold parseMio
  rw [stripComments_prelude pre hpre, hs]
  simp only [hhd, Option.bind_eq_bind, Option.bind_some, coeffRows_text hrows n hn, List.length_map]
  rfl

/-- **C53**.  A MIO file of any size whose second half repeats the index pairs of the first one is
parsed to exactly its header, index pairs, external coefficients (the first half) and internal
coefficients (the second half).  The latitude of the pole is the complement of its colatitude,
its longitude is brought to (-180, 180]. -/
theorem C53_parse (pf : List Char → Option K) (file : List Line) (nmax mmax pmin pmax smin smax : Int)
    (theta phi height ratio : K) (nms : List (Int × Int)) (qs gh : List (List K)) (hne : nms ≠ [])
    (hq : qs.length = nms.length) (hg : gh.length = nms.length)
    (h : MioText pf file nmax mmax pmin pmax smin smax theta phi height ratio ((nms ++ nms).zip (qs ++ gh)))
    (hn : ∀ r ∈ qs ++ gh, (r.length : Int) = (smax - smin + 1) * (pmax - pmin + 1) * 2) :
    ∃ lon, InRange phi lon ∧ parseMio pf file =
      some ⟨⟨nmax, mmax, pmin, pmax, smin, smax, theta, phi, 90 - theta, lon, height, ratio⟩,
        nms.map (fun e => [e.1, e.2]), qs, gh⟩ := by
  have hfst : ((nms ++ nms).zip (qs ++ gh)).map (fun r => [r.1.1, r.1.2]) = (nms ++ nms).map (fun e => [e.1, e.2]) := by
    have : ((nms ++ nms).zip (qs ++ gh)).map Prod.fst = nms ++ nms := List.map_fst_zip (by simp [hq, hg])
    conv_rhs => rw [← this, List.map_map]
    rfl
  have hsnd : ((nms ++ nms).zip (qs ++ gh)).map Prod.snd = qs ++ gh := List.map_snd_zip (by simp [hq, hg])
  have hlen : ((nms ++ nms).zip (qs ++ gh)).length / 2 = nms.length := by
    simp [hq, hg]; omega
  obtain ⟨lon, hlon, hp⟩ := parseMio_text h ((smax - smin + 1) * (pmax - pmin + 1) * 2).toNat (by
    intro r hr
    have : r.2 ∈ qs ++ gh := (List.of_mem_zip hr).2
    have := hn _ this
    omega)
  refine ⟨lon, hlon, ?_⟩
  rw [hp]
  simp only [hfst, hsnd, hlen]
  rw [if_neg (by
    simp only [List.any_eq_true, decide_eq_true_eq, not_exists, not_and, not_not]
    exact hn)]
  have ht : (List.map (fun e : Int × Int => [e.1, e.2]) (nms ++ nms)).take nms.length = nms.map (fun e => [e.1, e.2]) := by
    rw [List.map_append]
    exact List.take_left' (by simp)
  have hd : (List.map (fun e : Int × Int => [e.1, e.2]) (nms ++ nms)).drop nms.length = nms.map (fun e => [e.1, e.2]) := by
    rw [List.map_append]
    exact List.drop_left' (by simp)
  rw [ht, hd, List.take_left' hq, List.drop_left' hq]
  rw [if_neg (by simp [halvesMatch, hne])]

/-- **C53**, rejection: a file with an even number of rows is accepted only if the second half
repeats the index pairs of the first one and the rows have the size of the Fourier series. -/
theorem C53_reject (pf : List Char → Option K) (file : List Line) (nmax mmax pmin pmax smin smax : Int)
    (theta phi height ratio : K) (nq ng : List ((Int × Int) × List K)) (hl : nq.length = ng.length)
    (h : MioText pf file nmax mmax pmin pmax smin smax theta phi height ratio (nq ++ ng)) (n : Nat)
    (hn : ∀ r ∈ nq ++ ng, r.2.length = n) (hd : parseMio pf file ≠ none) :
    nq ≠ [] ∧ nq.map Prod.fst = ng.map Prod.fst ∧ (n : Int) = (smax - smin + 1) * (pmax - pmin + 1) * 2 := by
  obtain ⟨lon, -, hp⟩ := parseMio_text h n hn
  rw [hp] at hd
  have hlen : (nq ++ ng).length / 2 = nq.length := by rw [List.length_append]; omega
  simp only [hlen, List.map_append] at hd
  rw [List.take_left' (by simp), List.drop_left' (by simp)] at hd
  split at hd
  · exact absurd rfl hd
  · rename_i h1
    split at hd
    · exact absurd rfl hd
    · rename_i h2
      push Not at h2
      obtain ⟨h2, h3⟩ := h2
      have hne : nq ≠ [] := by intro h; rw [h] at h3; exact h3 rfl
      refine ⟨hne, ?_, ?_⟩
      · simp only [halvesMatch, List.length_map, hl, if_true] at h2
        simp only [Bool.not_eq_true', Bool.not_eq_false, beq_iff_eq, ne_eq] at h2
        have := congrArg (List.map (fun l : List Int => (l.headD 0, (l.drop 1).headD 0))) h2
        simpa [List.map_map, Function.comp_def] using this
      · obtain ⟨r, l, rfl⟩ := List.exists_cons_of_ne_nil hne
        by_contra hc
        apply h1
        simp only [List.any_eq_true, decide_eq_true_eq]
        refine ⟨r.2, by simp, ?_⟩
        rw [hn r (by simp)]
        exact hc

end mio

/-! ### Concrete files -/

section concrete

/-- Numbers read as integers. -/
def pfQ (s : List Char) : Option ℚ := (parseInt s).map (fun z : Int => (z : ℚ))

theorem posText (ds : List Char) (n : Nat) (h1 : ds ≠ [] := by decide) (h2 : ∀ c ∈ ds, c.isDigit = true := by decide)
    (h3 : n = Nat.ofDigitChars 10 ds 0 := by decide) : IntText ds n := ⟨ds, n, ⟨h1, h2, h3⟩, .inl ⟨rfl, rfl⟩⟩

theorem negText (ds : List Char) (n : Nat) (h1 : ds ≠ [] := by decide) (h2 : ∀ c ∈ ds, c.isDigit = true := by decide)
    (h3 : n = Nat.ofDigitChars 10 ds 0 := by decide) : IntText ('-' :: ds) (-n) :=
  ⟨ds, n, ⟨h1, h2, h3⟩, .inr (.inr ⟨rfl, rfl⟩)⟩

/-- Extended integers, with the infinities of the validity. -/
def pfE (s : List Char) : Option (WithBot (WithTop Int)) := (parseInt s).map (fun z : Int => ((z : WithTop Int) : WithBot (WithTop Int)))

/-- A small SHC file: comment, header with a comment, two times, two rows. -/
example : ShcText pfE
    ["# comment\n".toList, " 1 1 2 2 1 # header\n".toList, " 2000 2005\n".toList, "1 0 -30 -29\n".toList, "1 -1 5 6".toList]
    ⟨1, 1, 2, 2, 1, none⟩ [(2000 : Int), (2005 : Int)] [((1, 0), [(-30 : Int), (-29 : Int)]), ((1, -1), [(5 : Int), (6 : Int)])] := by
  refine ⟨["# comment\n".toList], " 1 1 2 2 1 # header\n".toList, [['1'], ['1'], ['2'], ['2'], ['1']], _,
    ["2000".toList, "2005".toList], _, rfl, ?_, ?_, ?_, ?_, ?_, ?_⟩
  · intro l hl
    rw [List.mem_singleton] at hl
    exact ⟨[], _, hl, by simp, by decide⟩
  · exact ⟨" 1 1 2 2 1 ".toList, "# header\n".toList, rfl, by decide, (split_iff _ _).mp (by decide), by decide⟩
  · exact .short (posText _ 1) (posText _ 1) (posText _ 2) (posText _ 2) (posText _ 1)
  · exact (split_iff _ _).mp (by decide)
  · exact .cons (by decide) (.cons (by decide) .nil)
  · refine .cons ⟨['1'], ['0'], ["-30".toList, "-29".toList], (split_iff _ _).mp (by decide), posText _ 1, posText _ 0, ?_⟩
      (.cons ⟨['1'], "-1".toList, [['5'], ['6']], (split_iff _ _).mp (by decide), posText _ 1, negText ['1'] 1, ?_⟩ .nil)
    · exact .cons (by decide) (.cons (by decide) .nil)
    · exact .cons (by decide) (.cons (by decide) .nil)

/-- The file with one more blank line at its end is not readable. -/
example : (parseShc pfE ["# comment\n".toList, " 1 1 2 2 1 # header\n".toList, " 2000 2005\n".toList,
      "1 0 -30 -29\n".toList, "1 -1 5 6".toList]).isSome = true ∧
    (parseShc pfE ["# comment\n".toList, " 1 1 2 2 1 # header\n".toList, " 2000 2005\n".toList,
      "1 0 -30 -29\n".toList, "1 -1 5 6".toList, "\n".toList]).isSome = false := by
  decide +kernel

/-- The spline order 1 of a file does not prevent the linear interpolation: 0 in 2000, 2 in 2005,
but 1 in the middle. -/
example : ∃ td : TimeDep ℚ, loadShc Verif.Time.decimalYearToMjd2kX true [.fin 2000, .fin 2005] 1 [[1, 0]] [[.fin 0, .fin 2]] = some td ∧
    ∃ tab d, callSingle td (fun _ => .fin (2002 + 1/2)) (-1) (-1) (.fin 0) = some (tab, d) ∧
      Verif.Spec.cell tab (place 1 0) false = .fin 1 := by
  obtain ⟨td, h, g⟩ := timeDep_table (K := ℚ) [(1, 0)] [[0, 2]] [2000, 2005] (by simp) rfl (by simp) (by decide)
    (by decide) (by simp) (by simp) (by simp)
  have hs : Verif.Spec.Segment [(2000 : ℚ), 2005] (2002 + 1/2) 0 1 := by
    have := segment_two (2000 : ℚ) (2002 + 1/2)
    norm_num at this ⊢
    exact this
  obtain ⟨tab, d, g1, g2, -⟩ := g (fun _ => .fin (2002 + 1/2)) (.fin 0) _ rfl 0 1 hs
  refine ⟨td, ?_, tab, d, g1, ?_⟩
  · unfold loadShc toPairs
    exact congrArg (fun o => o.bind some) h
  · have := g2 0 (by simp)
    simp [Verif.Spec.line] at this
    rw [this]
    norm_num

/-- A small WMM file, with text after the terminating line. -/
example : ∃ rows : List (WmmRow ℚ), List.Forall₂ (WmmText pfQ) ["1 0 -29 0 10 0\n".toList, "1 1 -1 4 0 -26\n".toList] rows ∧
    WmmEnd ["999999\n".toList, "anything".toList] ∧ (∀ r ∈ rows, 0 ≤ r.m ∧ r.m ≤ r.n) ∧
    (rows.map (fun r => (r.n, r.m))).Nodup ∧ ∃ r ∈ rows, r.g ≠ 0 := by
  refine ⟨[⟨1, 0, -29, 0, 10, 0⟩, ⟨1, 1, -1, 4, 0, -26⟩], ?_, ?_, ?_, ?_, ?_⟩
  · refine .cons ⟨['1'], ['0'], "-29".toList, ['0'], "10".toList, ['0'], [], (split_iff _ _).mp (by decide), posText _ 1, posText _ 0, ?_, ?_, ?_, ?_⟩
      (.cons ⟨['1'], ['1'], "-1".toList, ['4'], ['0'], "-26".toList, [], (split_iff _ _).mp (by decide), posText _ 1, posText _ 1, ?_, ?_, ?_, ?_⟩ .nil)
      <;> decide +kernel
  · exact .inr ⟨_, _, "999999".toList, rfl, (split_iff _ _).mp (by decide), by decide, by decide⟩
  · simp
  · simp
  · exact ⟨_, List.mem_cons_self, by norm_num⟩

/-- A small IGRF file: labels, epochs, values with the secular variation. -/
example : List.Forall₂ (IgrfText pfQ) ["g 1 0 -30 -29 7\n".toList, "h 1 1 5 6 -2\n".toList]
    ([(⟨(1, 0), [-30], -29, 7⟩ : IgrfRow ℚ), ⟨(1, -1), [5], 6, -2⟩].map (fun r => (r.nm, r.vs ++ [r.v, r.dv]))) := by
  refine .cons ⟨['g'], ['1'], ['0'], ["-30".toList, "-29".toList, ['7']], 0, (split_iff _ _).mp (by decide), posText _ 1, posText _ 0, ?_, ?_⟩
    (.cons ⟨['h'], ['1'], ['1'], [['5'], ['6'], "-2".toList], 1, (split_iff _ _).mp (by decide), posText _ 1, posText _ 1, ?_, ?_⟩ .nil)
  · rfl
  · exact .cons (by decide +kernel) (.cons (by decide +kernel) (.cons (by decide +kernel) .nil))
  · rfl
  · exact .cons (by decide +kernel) (.cons (by decide +kernel) (.cons (by decide +kernel) .nil))

/-- A line of the epoch, another line of the header and a line of dashes. -/
example : Fields ["Epoch:".toList, "2015".toList] " Epoch: 2015\n".toList ∧ pfQ "2015".toList = some 2015 ∧
    EmmOther "Model: EMM2015\n".toList ∧ Fields ["---".toList] "---\n".toList :=
  ⟨(split_iff _ _).mp (by decide), by decide +kernel,
    ⟨["Model:".toList, "EMM2015".toList], (split_iff _ _).mp (by decide), fun v h => by
      have := (List.cons.inj h).1; exact absurd this (by decide), fun f h => by
      have := congrArg List.length h; simp at this⟩, (split_iff _ _).mp (by decide)⟩

/-- A small MIO file: the pole at 285 degrees comes out at -75 degrees. -/
example : (parseMio pfQ ["# comment".toList, "1 1 0 0 0 0 10 285 110 0".toList, "1 0 3 4".toList, "1 1 5 6".toList,
      "1 0 7 8".toList, "1 1 9 10".toList]).map (fun d : MioData ℚ => ((d.header.latNGP, d.header.lonNGP), d.nm, (d.qs, d.gh))) =
    some (((80, -75) : ℚ × ℚ), ([[1, 0], [1, 1]] : List (List Int)), (([[3, 4], [5, 6]], [[7, 8], [9, 10]]) : List (List ℚ) × List (List ℚ))) := by
  decide +kernel

/-- The index pairs of the halves differ. -/
example : (parseMio pfQ ["1 1 0 0 0 0 10 285 110 0".toList, "1 0 3 4".toList, "1 1 5 6".toList]).isSome = false := by
  decide +kernel

/-- Its hypotheses hold. -/
example : MioText pfQ ["# comment".toList, "1 1 0 0 0 0 10 285 110 0".toList, "1 0 3 4".toList, "1 0 7 8".toList]
    1 1 0 0 0 0 10 285 110 0 (([(1, 0)] ++ [(1, 0)] : List (Int × Int)).zip ([[3, 4]] ++ [[7, 8]] : List (List ℚ))) := by
  refine ⟨["# comment".toList], _, ["1".toList, "1".toList, "0".toList, "0".toList, "0".toList, "0".toList, "10".toList,
    "285".toList, "110".toList, "0".toList], _, rfl, ?_, ?_, ?_, ?_⟩
  · intro l hl
    rw [List.mem_singleton] at hl
    exact ⟨[], _, hl, by simp, by decide⟩
  · exact ⟨_, [], (List.append_nil _).symm, by decide, (split_iff _ _).mp (by decide), by simp⟩
  · exact ⟨_, _, _, _, _, _, _, _, _, _, _, rfl, posText _ 1, posText _ 1, posText _ 0, posText _ 0, posText _ 0, posText _ 0,
      by decide +kernel, by decide +kernel, by decide +kernel, by decide +kernel⟩
  · refine .cons ⟨['1'], ['0'], [['3'], ['4']], (split_iff _ _).mp (by decide), posText _ 1, posText _ 0, ?_⟩
      (.cons ⟨['1'], ['0'], [['7'], ['8']], (split_iff _ _).mp (by decide), posText _ 1, posText _ 0, ?_⟩ .nil) <;>
    exact .cons (by decide +kernel) (.cons (by decide +kernel) .nil)

end concrete

end Verif.Props
