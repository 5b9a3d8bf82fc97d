/-
Properties C48, C56: batches of points and the variables kept between the calls.
-/
import Verif.Props.QdCoords

set_option linter.unusedSectionVars false

namespace Verif.Props

open Verif.Qd Verif.Apex Verif.Geo Verif Verif.Spec Verif.Spec.Qd

variable {F : Type} [DecidableEq F]

/-- A point with a finite time: decimal year, radius, latitude, longitude. -/
structure FPt where
  time : ℝ
  rad : ℝ
  lat : ℝ
  lon : ℝ

def FPt.pt (p : FPt) : Pt ℝ := ⟨.fin p.time, p.rad, p.lat, p.lon⟩

/-- The environment: exact libm, any conversion to single precision, any files, any contents of the allocated memory. -/
noncomputable def env (sngl : ℝ → ℝ) (fs : F → Option (Table ℝ)) (junk : ℕ → ℝ) : Env F ℝ :=
  ⟨libm, Real.sqrt (1 / 2), sngl, fs, junk⟩

/-- Geodetic latitude and altitude of a point. -/
noncomputable def geodetic (sngl : ℝ → ℝ) (p : FPt) : ℝ × ℝ := convrt4 libm (sngl p.lat) (sngl p.rad)

/-- Coordinates of a point for an epoch, a function of the file contents, the epoch and the position only. -/
noncomputable def qdAt (sngl : ℝ → ℝ) (t : Table ℝ) (vec : Bool) (e : ℝ) (p : FPt) : Option (Qd ℝ) :=
  pointQd t (.fin e) (geodetic sngl p).1 (sngl p.lon) (geodetic sngl p).2 vec

/-- States of the module which the calls can leave. -/
inductive Reachable (sngl : ℝ → ℝ) (fs : F → Option (Table ℝ)) : Mod F ℝ → Prop
  | init (junk) : Reachable sngl fs (Mod.init junk)
  | call (junk file vec pts m r m') (h : Reachable sngl fs m) (he : evalQd (env sngl fs junk) file vec pts m = some (r, m')) :
      Reachable sngl fs m'

/-- The limit of the change of the epoch: one day. -/
noncomputable def oneDay : ℝ := 1 / 365.25

theorem changed_fin (e o : ℝ) : changed (.fin e) (.fin o) = decide (oneDay < |e - o|) := by
  have : (epochLimit : ℝ) = oneDay := by unfold epochLimit oneDay; norm_num
  simp only [changed, X.sub, X.add, X.neg, xabs, X.lt, this, ← sub_eq_add_neg]

theorem qdStep_inv {sngl : ℝ → ℝ} {fs : F → Option (Table ℝ)} (hfs : ∀ f t, fs f = some t → TableOk t) {junk file vec} {s : Mod F ℝ × X ℝ}
    {p : Pt ℝ} {r} (hs : Inv fs s.1) (he : step (env sngl fs junk) file vec s p = some r) : Loaded fs r.2.1 := by
  obtain ⟨m, o⟩ := s
  unfold step at he
  simp only [Option.bind_eq_bind] at he
  have fin : ∀ m1 : Mod F ℝ, ∀ o1 : X ℝ, Inv fs m1 →
      ((apxg2q (env sngl fs junk).L (env sngl fs junk).p00 m1 (convrt4 (env sngl fs junk).L ((env sngl fs junk).sngl p.lat) ((env sngl fs junk).sngl p.rad)).1
        ((env sngl fs junk).sngl p.lon) (convrt4 (env sngl fs junk).L ((env sngl fs junk).sngl p.lat) ((env sngl fs junk).sngl p.rad)).2 vec).bind
        fun r => some (r.1, r.2, o1)) = some r → Loaded fs r.2.1 := by
    intro m1 o1 h1 h2
    rcases h1 with h1 | h1
    · unfold apxg2q at h2
      rw [if_pos h1] at h2
      cases h2
    · obtain ⟨q, m', e1, hl, _⟩ := apxg2q_spec h1 (convrt4 libm (sngl p.lat) (sngl p.rad)).1 (sngl p.lon)
        (convrt4 libm (sngl p.lat) (sngl p.rad)).2 vec
      have e2 : (some (q, m')).bind (fun r => some (r.1, r.2, o1)) = some r := by rw [← e1]; exact h2
      simp only [Option.bind_some, Option.some.injEq] at e2
      rw [← e2]; exact hl
  by_cases hc : changed (snglX (env sngl fs junk).sngl p.time) o = true
  · simp only [hc, if_true] at he
    cases hl : loadapxsh (env sngl fs junk).fs (env sngl fs junk).junk m file (snglX (env sngl fs junk).sngl p.time) with
    | none => rw [hl] at he; cases he
    | some m1 =>
      rw [hl] at he
      simp only [Option.map_some, Option.bind_some] at he
      refine fin m1 _ ?_ he
      have hn : snglX (env sngl fs junk).sngl p.time ≠ .nan := by
        intro hn
        rw [hn] at hc
        simp [changed, X.sub, X.add, xabs, X.lt] at hc
      cases hf : fs file with
      | some t =>
        obtain ⟨m2, e2, hm2, _⟩ := loadapxsh_spec junk hs hf (hfs _ _ hf) hn
        have : loadapxsh fs junk m file (snglX (env sngl fs junk).sngl p.time) = some m1 := hl
        rw [this] at e2
        cases e2
        exact Or.inr hm2
      | none =>
        exfalso
        have hl' : loadapxsh fs junk m file (snglX (env sngl fs junk).sngl p.time) = some m1 := hl
        unfold loadapxsh at hl'
        by_cases hr : (decide (m.fileLast ≠ some file) || m.loadflag) = true
        · simp only [hr, if_true, hf, Option.map_none, Option.bind_eq_bind, Option.bind_none] at hl'
          cases hl'
        · simp only [Bool.or_eq_true, decide_eq_true_eq, not_or, not_not, Bool.not_eq_true] at hr
          rcases hs with h | h
          · simp only at h; rw [hr.2] at h; cases h
          · obtain ⟨f, h1, h2⟩ := h.file
            simp only at h1 h2
            rw [hr.1] at h1
            cases h1
            rw [hf] at h2
            cases h2
  · simp only [hc, Bool.false_eq_true, if_false, Option.bind_some] at he
    exact fin m o hs he

theorem qdLoop_inv {sngl : ℝ → ℝ} {fs : F → Option (Table ℝ)} (hfs : ∀ f t, fs f = some t → TableOk t) {junk file vec} (pts : List (Pt ℝ)) :
    ∀ (s : Mod F ℝ × X ℝ) r, Inv fs s.1 → loop (env sngl fs junk) file vec pts s = some r → Inv fs r.2 := by
  induction pts with
  | nil => intro s r hs he; unfold loop at he; cases he; exact hs
  | cons p ps ih =>
    intro s r hs he
    unfold loop at he
    cases h1 : step (env sngl fs junk) file vec s p with
    | none => rw [h1] at he; cases he
    | some r1 =>
      rw [h1] at he
      simp only [Option.bind_eq_bind, Option.bind_some] at he
      cases h2 : loop (env sngl fs junk) file vec ps r1.2 with
      | none => rw [h2] at he; cases he
      | some r2 =>
        rw [h2] at he
        simp only [Option.bind_some, Option.some.injEq] at he
        rw [← he]
        exact ih _ r2 (Or.inr (qdStep_inv hfs hs h1)) h2

theorem reachable_inv {sngl : ℝ → ℝ} {fs : F → Option (Table ℝ)} (hfs : ∀ f t, fs f = some t → TableOk t) {m : Mod F ℝ}
    (h : Reachable sngl fs m) : Inv fs m := by
  induction h with
  | init junk => exact Or.inl rfl
  | call junk file vec pts m r m' _ he ih => exact qdLoop_inv hfs pts _ _ ih he

/-- One pass with a finite time. -/
theorem qdStep_spec {sngl : ℝ → ℝ} {fs : F → Option (Table ℝ)} {junk : ℕ → ℝ} {file : F} {t : Table ℝ} (hf : fs file = some t) (ht : TableOk t) (vec : Bool)
    {m : Mod F ℝ} {o : ℝ} (p : FPt) (halt : (geodetic sngl p).2 ≠ -999)
    (hm : (Inv fs m ∧ oneDay < |sngl p.time - o|) ∨ (Loaded fs m ∧ m.table = t ∧ m.epochLast = .fin o)) :
    ∃ q m' u, step (env sngl fs junk) file vec (m, .fin o) p.pt = some (q, m', .fin u) ∧ Loaded fs m' ∧ m'.table = t ∧
      m'.epochLast = .fin u ∧ qdAt sngl t vec u p = some q ∧
      u = if oneDay < |sngl p.time - o| then sngl p.time else o := by
  have fin : ∀ m1 : Mod F ℝ, ∀ u : ℝ, Loaded fs m1 → m1.table = t → m1.epochLast = .fin u →
      ∃ q m', ((apxg2q libm (Real.sqrt (1 / 2)) m1 (convrt4 libm (sngl p.lat) (sngl p.rad)).1
        (sngl p.lon) (convrt4 libm (sngl p.lat) (sngl p.rad)).2 vec).bind
        fun r => some (r.1, r.2, X.fin u)) = some (q, m', X.fin u) ∧ Loaded fs m' ∧ m'.table = t ∧ m'.epochLast = .fin u ∧
        qdAt sngl t vec u p = some q := by
    intro m1 u h1 h2 h3
    obtain ⟨q, m', e1, hl, h4, h5, -, h6⟩ := apxg2q_spec h1 (convrt4 libm (sngl p.lat) (sngl p.rad)).1 (sngl p.lon)
      (convrt4 libm (sngl p.lat) (sngl p.rad)).2 vec
    rw [e1]
    have := h6 halt
    rw [h2, h3] at this
    exact ⟨q, m', rfl, hl, h4.trans h2, h5.trans h3, this⟩
  unfold step
  have hep : snglX (env sngl fs junk).sngl p.pt.time = .fin (sngl p.time) := rfl
  simp only [hep, changed_fin, decide_eq_true_eq]
  by_cases hc : oneDay < |sngl p.time - o|
  · have hi : Inv fs m := by
      rcases hm with h | h
      · exact h.1
      · exact Or.inr h.1
    obtain ⟨m1, e1, hl, h1, h2, h3⟩ := loadapxsh_spec junk hi hf ht (e := .fin (sngl p.time)) (by simp)
    have e1' : loadapxsh (env sngl fs junk).fs (env sngl fs junk).junk m file (.fin (sngl p.time)) = some m1 := e1
    simp only [hc, if_true, e1', Option.map_some, Option.bind_eq_bind, Option.bind_some]
    obtain ⟨q, m', a1, a2, a3, a4, a5⟩ := fin m1 (sngl p.time) hl h1 h2
    exact ⟨q, m', sngl p.time, a1, a2, a3, a4, a5, rfl⟩
  · have hL : Loaded fs m ∧ m.table = t ∧ m.epochLast = .fin o := by
      rcases hm with h | h
      · exact absurd h.2 hc
      · exact h
    simp only [hc, if_false, Option.bind_eq_bind, Option.bind_some]
    obtain ⟨q, m', a1, a2, a3, a4, a5⟩ := fin m o hL.1 hL.2.1 hL.2.2
    exact ⟨q, m', o, a1, a2, a3, a4, a5, rfl⟩

/-- The epochs for which the coefficients are loaded. -/
noncomputable def held (sngl : ℝ → ℝ) : ℝ → List FPt → List ℝ
  | _, [] => []
  | o, p :: ps =>
    let u := if oneDay < |sngl p.time - o| then sngl p.time else o
    u :: held sngl u ps

theorem qdHeld_length (sngl : ℝ → ℝ) (ps : List FPt) : ∀ o, (held sngl o ps).length = ps.length := by
  induction ps with
  | nil => intro o; rfl
  | cons p ps ih => intro o; simp only [held, List.length_cons, ih]

/-- Each held epoch is within a day of the epoch of the point, and is the epoch of an earlier point or the initial one. -/
theorem qdHeld_spec (sngl : ℝ → ℝ) (ps : List FPt) : ∀ o i (h : i < ps.length) (h' : i < (held sngl o ps).length),
    |sngl ps[i].time - (held sngl o ps)[i]| ≤ oneDay ∧
      (((held sngl o ps)[i] = o ∧ ¬ oneDay < |sngl (ps[0]'(by omega)).time - o|) ∨ ∃ j, ∃ _ : j ≤ i, (held sngl o ps)[i] = sngl (ps[j]'(by omega)).time) := by
  induction ps with
  | nil => intro o i h; simp at h
  | cons p ps ih =>
    intro o i h h'
    have hd : 0 ≤ oneDay := by unfold oneDay; norm_num
    cases i with
    | zero =>
      simp only [held, List.getElem_cons_zero]
      by_cases hc : oneDay < |sngl p.time - o|
      · simp only [hc, if_true, sub_self, abs_zero]
        exact ⟨hd, Or.inr ⟨0, le_refl _, rfl⟩⟩
      · simp only [hc, if_false]
        exact ⟨not_lt.mp hc, Or.inl ⟨trivial, not_false⟩⟩
    | succ i =>
      simp only [held, List.getElem_cons_succ]
      have hi : i < ps.length := by simpa using h
      obtain ⟨h1, h2⟩ := ih (if oneDay < |sngl p.time - o| then sngl p.time else o) i hi (by rw [qdHeld_length]; exact hi)
      refine ⟨h1, ?_⟩
      rcases h2 with ⟨h2, -⟩ | ⟨j, hj, h2⟩
      · rw [h2]
        by_cases hc : oneDay < |sngl p.time - o|
        · rw [if_pos hc]; exact Or.inr ⟨0, by omega, rfl⟩
        · rw [if_neg hc]; exact Or.inl ⟨rfl, hc⟩
      · exact Or.inr ⟨j + 1, by omega, by rw [h2]; rfl⟩

theorem qdLoop_spec {sngl : ℝ → ℝ} {fs : F → Option (Table ℝ)} {junk : ℕ → ℝ} {file : F} {t : Table ℝ} (hf : fs file = some t) (ht : TableOk t) (vec : Bool)
    (ps : List FPt) (halt : ∀ p ∈ ps, (geodetic sngl p).2 ≠ -999) :
    ∀ (m : Mod F ℝ) (o : ℝ), ((Inv fs m ∧ ∀ p, ps.head? = some p → oneDay < |sngl p.time - o|) ∨
        (Loaded fs m ∧ m.table = t ∧ m.epochLast = .fin o)) →
      ∃ qs m', loop (env sngl fs junk) file vec (ps.map FPt.pt) (m, .fin o) = some (qs, m') ∧
        qs.map some = List.zipWith (qdAt sngl t vec) (held sngl o ps) ps := by
  induction ps with
  | nil => intro m o _; exact ⟨[], m, rfl, rfl⟩
  | cons p ps ih =>
    intro m o hm
    obtain ⟨q, m1, u, e1, l1, t1, p1, q1, hu⟩ := qdStep_spec (junk := junk) hf ht vec p (halt p (by simp)) (m := m) (o := o) (by
      rcases hm with h | h
      · exact Or.inl ⟨h.1, h.2 p rfl⟩
      · exact Or.inr h)
    obtain ⟨qs, m2, e2, q2⟩ := ih (fun p hp => halt p (by simp [hp])) m1 u (Or.inr ⟨l1, t1, p1⟩)
    refine ⟨q :: qs, m2, ?_, ?_⟩
    · simp only [List.map_cons, loop, e1, Option.bind_eq_bind, Option.bind_some, e2]
    · simp only [List.map_cons, held, List.zipWith_cons_cons, ← hu, q2, q1]

/-- C56: the result of a call is a function of the file contents and of the points: from any state which earlier calls can leave the
call succeeds and gives the same coordinates.
Hypotheses: finite times, no point at the altitude of exactly -999 km, first epoch not within a day of -9999.9. -/
theorem C56_no_history {sngl : ℝ → ℝ} {fs : F → Option (Table ℝ)} (hfs : ∀ f t, fs f = some t → TableOk t)
    {file : F} {t : Table ℝ} (hf : fs file = some t) (vec : Bool) (ps : List FPt) (halt : ∀ p ∈ ps, (geodetic sngl p).2 ≠ -999)
    (h0 : ∀ p, ps.head? = some p → oneDay < |sngl p.time + 9999.9|) :
    ∃ qs : List (Qd ℝ), ∀ (junk : ℕ → ℝ) (m : Mod F ℝ), Reachable sngl fs m →
      ∃ m', evalQd (env sngl fs junk) file vec (ps.map FPt.pt) m = some (qs, m') := by
  have key : ∀ (junk : ℕ → ℝ) (m : Mod F ℝ), Reachable sngl fs m →
      ∃ qs m', evalQd (env sngl fs junk) file vec (ps.map FPt.pt) m = some (qs, m') ∧
        qs.map some = List.zipWith (qdAt sngl t vec) (held sngl (-99999 / 10) ps) ps := by
    intro junk m hm
    exact qdLoop_spec hf (hfs _ _ hf) vec ps halt m (-99999 / 10) (Or.inl ⟨reachable_inv hfs hm, by
      intro p hp; have := h0 p hp; rw [show (-99999 / 10 : ℝ) = -9999.9 by norm_num, sub_neg_eq_add]; exact this⟩)
  obtain ⟨qs, _, _, h1⟩ := key (fun _ => 0) _ (.init (fun _ => 0))
  refine ⟨qs, fun junk m hm => ?_⟩
  obtain ⟨qs', m', e, h2⟩ := key junk m hm
  have : qs = qs' := by
    rw [← h1] at h2
    exact (List.map_injective_iff.mpr (Option.some_injective _) h2).symm
  rw [this]
  exact ⟨m', e⟩

/-- C48: the coordinates of each point of a batch are those of the table at an epoch which differs from the epoch of the point by
no more than a day and which is the epoch of this or an earlier point. -/
theorem C48_epochs {sngl : ℝ → ℝ} {fs : F → Option (Table ℝ)} (hfs : ∀ f t, fs f = some t → TableOk t)
    {file : F} {t : Table ℝ} (hf : fs file = some t) (vec : Bool) (ps : List FPt) (halt : ∀ p ∈ ps, (geodetic sngl p).2 ≠ -999)
    (h0 : ∀ p, ps.head? = some p → oneDay < |sngl p.time + 9999.9|) (junk : ℕ → ℝ) {m : Mod F ℝ} (hm : Reachable sngl fs m) :
    ∃ qs m', evalQd (env sngl fs junk) file vec (ps.map FPt.pt) m = some (qs, m') ∧ qs.length = ps.length ∧
      ∀ i (h : i < ps.length) (h' : i < qs.length), ∃ j, ∃ _ : j ≤ i,
        |sngl ps[i].time - sngl (ps[j]'(by omega)).time| ≤ oneDay ∧
        qdAt sngl t vec (sngl (ps[j]'(by omega)).time) ps[i] = some qs[i] := by
  have h0' : ∀ p, ps.head? = some p → oneDay < |sngl p.time - -99999 / 10| := by
    intro p hp; have := h0 p hp; rw [show (-99999 / 10 : ℝ) = -9999.9 by norm_num, sub_neg_eq_add]; exact this
  obtain ⟨qs, m', e, h1⟩ := qdLoop_spec (junk := junk) hf (hfs _ _ hf) vec ps halt m (-99999 / 10) (Or.inl ⟨reachable_inv hfs hm, h0'⟩)
  have hlen : qs.length = ps.length := by
    have := congrArg List.length h1
    simpa [qdHeld_length] using this
  refine ⟨qs, m', e, hlen, fun i h h' => ?_⟩
  have hq : qdAt sngl t vec ((held sngl (-99999 / 10) ps)[i]'(by rw [qdHeld_length]; exact h)) ps[i] = some qs[i] := by
    have : (qs.map some)[i]? = (List.zipWith (qdAt sngl t vec) (held sngl (-99999 / 10) ps) ps)[i]? := by rw [h1]
    rw [List.getElem?_map, List.getElem?_eq_getElem h', List.getElem?_zipWith, List.getElem?_eq_getElem h,
      List.getElem?_eq_getElem (by rw [qdHeld_length]; exact h)] at this
    simpa using this.symm
  obtain ⟨s1, s2⟩ := qdHeld_spec sngl ps (-99999 / 10) i h (by rw [qdHeld_length]; exact h)
  rcases s2 with ⟨-, s2⟩ | ⟨j, hj, s2⟩
  · refine absurd (h0' _ ?_) s2
    rw [List.head?_eq_getElem?, List.getElem?_eq_getElem]
  · rw [s2] at s1 hq
    exact ⟨j, hj, s1, hq⟩


/-- C48: if the epochs of any two points are equal or differ by more than a day, the batch is the list of the point-wise results.
(The claim without this hypothesis is false, see `C48_batch_differs`.) -/
theorem C48_pointwise_partial {sngl : ℝ → ℝ} {fs : F → Option (Table ℝ)} (hfs : ∀ f t, fs f = some t → TableOk t)
    {file : F} {t : Table ℝ} (hf : fs file = some t) (vec : Bool) (ps : List FPt) (halt : ∀ p ∈ ps, (geodetic sngl p).2 ≠ -999)
    (h0 : ∀ p ∈ ps, oneDay < |sngl p.time + 9999.9|)
    (hd : ∀ p ∈ ps, ∀ p' ∈ ps, sngl p.time = sngl p'.time ∨ oneDay < |sngl p.time - sngl p'.time|)
    (junk : ℕ → ℝ) {m : Mod F ℝ} (hm : Reachable sngl fs m) :
    ∃ qs m', evalQd (env sngl fs junk) file vec (ps.map FPt.pt) m = some (qs, m') ∧ qs.length = ps.length ∧
      ∀ i (h : i < ps.length) (h' : i < qs.length), ∀ (junk1 : ℕ → ℝ) (m1 : Mod F ℝ), Reachable sngl fs m1 →
        ∃ m2, evalQd (env sngl fs junk1) file vec [ps[i].pt] m1 = some ([qs[i]], m2) := by
  obtain ⟨qs, m', e, hl, h1⟩ := C48_epochs hfs hf vec ps halt (fun p hp => h0 p (List.mem_of_mem_head? hp)) junk hm
  refine ⟨qs, m', e, hl, fun i h h' junk1 m1 hm1 => ?_⟩
  obtain ⟨j, hj, h2, h3⟩ := h1 i h h'
  have he : sngl ps[i].time = sngl (ps[j]'(by omega)).time := by
    rcases hd ps[i] (List.getElem_mem h) (ps[j]'(by omega)) (List.getElem_mem _) with h4 | h4
    · exact h4
    · exact absurd h2 (not_le.mpr h4)
  obtain ⟨q1, m2, e1, hl1, k1⟩ := C48_epochs hfs hf vec [ps[i]] (by intro p hp; simp at hp; subst hp; exact halt _ (List.getElem_mem h))
    (by intro p hp; simp at hp; subst hp; exact h0 _ (List.getElem_mem h)) junk1 hm1
  match q1, hl1, e1, k1 with
  | [a], _, e1, k1 =>
    obtain ⟨j1, hj1, h5, h6⟩ := k1 0 (by simp) (by simp)
    have : j1 = 0 := by omega
    subst this
    simp only [List.getElem_cons_zero] at h6
    rw [he, h3] at h6
    cases h6
    exact ⟨m2, e1⟩

/-! ### A concrete table -/

/-- Two epochs, one degree; the third component of the vector changes with the epoch. -/
noncomputable def twoEpochs : Table ℝ where
  grid := [2000, 2001]
  nmax := 1
  mmax := 1
  lmax := 0
  nterm := 4
  coef := fun i e k => if i = 0 then (if k = 0 then 1 else if k = 2 then e else 0) else 0

theorem twoEpochs_ok : TableOk twoEpochs :=
  ⟨by decide, by decide, by decide, by simp [twoEpochs], by simp [twoEpochs]; norm_num⟩

theorem fullP_zero (θ : ℝ) : fullP 0 0 θ = Real.sqrt (1 / 2) := by
  simp [fullP, fullNorm, legP]

/-- Series with the first coefficient only. -/
theorem component_first (c : ℝ) (ρ θ φ : ℝ) :
    component 1 1 0 (fun i => if i = 0 then c else 0) ρ θ φ = c * Real.sqrt (1 / 2) := by
  simp [component, shSeries, termIndex, termCount, Finset.sum_range_succ, fullP_zero]

/-- The vector of the table between its epochs. -/
theorem twoEpochs_vector (e : ℝ) (h1 : 2000 ≤ e) (h2 : e ≤ 2001) (alt : ℝ) :
    IsVector twoEpochs e alt (fun k _ _ => (if k = 0 then 1 else if k = 2 then e - 2000 else 0) * Real.sqrt (1 / 2)) := by
  refine ⟨fun k i => polyVal twoEpochs.grid (fun j => twoEpochs.coef i j k), fun _ _ => polyVal_spec twoEpochs_ok.sorted twoEpochs_ok.epochs _,
    fun k lat lon => ?_⟩
  beta_reduce
  rw [← component_first _ (radiusMean / (radiusMean + alt)) (Real.pi / 2 - lat) lon]
  congr 1
  funext i
  have := (polyVal_spec twoEpochs_ok.sorted twoEpochs_ok.epochs (fun j => twoEpochs.coef i j k)).between 0 (by simp [twoEpochs]) e
    (by simpa [twoEpochs] using h1) (by simpa [twoEpochs] using h2)
  rw [this]
  simp only [twoEpochs]
  by_cases hi : i = 0
  · by_cases hk : k = 0
    · simp [hi, hk]
    · by_cases hk2 : k = 2
      · simp [hi, hk2]; norm_num
      · simp [hi, hk, hk2]
  · simp [hi]

/-- The latitude of the table between its epochs is zero at the first epoch only. -/
theorem twoEpochs_lat (e : ℝ) (h1 : 2000 ≤ e) (h2 : e ≤ 2001) (glat glon alt : ℝ) (vec : Bool) :
    ∃ q, pointQd twoEpochs (.fin e) glat glon alt vec = some q ∧ (Real.sin (q.lat * (Real.pi / 180)) = 0 ↔ e = 2000) := by
  obtain ⟨q, e1, _, _, _, _, _, _, h⟩ := C58_coordinates twoEpochs_ok e glat glon alt vec (twoEpochs_vector e h1 h2 alt)
  refine ⟨q, e1, ?_⟩
  simp at h
  have h3 : 0 < (Real.sqrt 2)⁻¹ := by positivity
  have h4 : 0 < Real.sqrt (2⁻¹ + ((e - 2000) * (Real.sqrt 2)⁻¹) ^ 2) := Real.sqrt_pos.mpr (by positivity)
  constructor
  · intro h5
    rw [h5, mul_zero] at h
    rcases mul_eq_zero.mp h.symm with h6 | h6
    · linarith
    · exact absurd h6 h3.ne'
  · intro h5
    rw [h5, sub_self, zero_mul] at h
    rcases mul_eq_zero.mp h with h6 | h6
    · rw [h5, sub_self, zero_mul] at h4; exact absurd h6 h4.ne'
    · exact h6

/-- The conversion to the geodetic coordinates at the equator. -/
theorem convrt4_equator (r : ℝ) : convrt4 libm 0 r = (0, r - 6378.137) := by
  have h0 : libm.sin 0 = 0 := Real.sin_zero
  have h1 : libm.cos 0 = 1 := Real.cos_zero
  have h2 : libm.sqrt 1 = 1 := Real.sqrt_one
  unfold convrt4
  simp only [zero_mul, h0, mul_zero, sub_zero, h2, add_zero, h1, mul_one]
  norm_num

/-- Batches with the table. -/
theorem twoEpochs_env : ∀ (f : Unit) t, (fun _ : Unit => some twoEpochs) f = some t → TableOk t := by
  intro f t h; cases h; exact twoEpochs_ok

/-- C48: a batch of two points, less than half a day apart, is not the list of the point-wise results. -/
theorem C48_batch_differs :
    ∃ (p1 p2 : FPt) (q1 q2 q : Qd ℝ) (m m' : Mod Unit ℝ),
      evalQd (env id (fun _ : Unit => some twoEpochs) (fun _ => 0)) () false [p1.pt, p2.pt] (Mod.init (fun _ => 0)) = some ([q1, q2], m) ∧
      evalQd (env id (fun _ : Unit => some twoEpochs) (fun _ => 0)) () false [p2.pt] (Mod.init (fun _ => 0)) = some ([q], m') ∧
      q2.lat ≠ q.lat := by
  set p1 : FPt := ⟨2000, 7000, 0, 0⟩ with hp1
  set p2 : FPt := ⟨2000.001, 7000, 0, 0⟩ with hp2
  have ha : ∀ p ∈ [p1, p2], (geodetic id p).2 ≠ -999 := by
    intro p hp
    have : geodetic id p = (0, 7000 - 6378.137) := by
      simp only [List.mem_cons, List.not_mem_nil, or_false] at hp
      rcases hp with rfl | rfl <;> exact convrt4_equator 7000
    rw [this]; norm_num
  have hr := Reachable.init (F := Unit) (sngl := id) (fs := fun _ : Unit => some twoEpochs) (fun _ => (0 : ℝ))
  obtain ⟨qs, m, e1, l1⟩ := qdLoop_spec (sngl := id) (junk := fun _ => 0) (fs := fun _ : Unit => some twoEpochs) (file := ()) rfl twoEpochs_ok false [p1, p2] ha
    (Mod.init (fun _ => 0)) (-99999 / 10) (Or.inl ⟨Or.inl rfl, by
      intro p hp; simp at hp; subst hp; rw [hp1]; simp only [id, oneDay]; rw [abs_of_pos] <;> norm_num⟩)
  obtain ⟨qs', m', e2, l2⟩ := qdLoop_spec (sngl := id) (junk := fun _ => 0) (fs := fun _ : Unit => some twoEpochs) (file := ()) rfl twoEpochs_ok false [p2]
    (fun p hp => ha p (by simp at hp; simp [hp]))
    (Mod.init (fun _ => 0)) (-99999 / 10) (Or.inl ⟨Or.inl rfl, by
      intro p hp; simp at hp; subst hp; rw [hp2]; simp only [id, oneDay]; rw [abs_of_pos] <;> norm_num⟩)
  have g1 : oneDay < |(2000 : ℝ) - -99999 / 10| := by unfold oneDay; rw [abs_of_pos] <;> norm_num
  have g2 : oneDay < |(2000.001 : ℝ) - -99999 / 10| := by unfold oneDay; rw [abs_of_pos] <;> norm_num
  have g3 : ¬ oneDay < |(2000.001 : ℝ) - 2000| := by unfold oneDay; rw [abs_of_pos] <;> norm_num
  simp only [held, hp1, hp2, id, g1, g2, g3, if_true, if_false, List.zipWith_cons_cons, List.zipWith_nil_left] at l1 l2
  obtain ⟨q2, c2, d2⟩ := twoEpochs_lat 2000 (by norm_num) (by norm_num) (geodetic id p2).1 0 (geodetic id p2).2 false
  obtain ⟨q, c3, d3⟩ := twoEpochs_lat 2000.001 (by norm_num) (by norm_num) (geodetic id p2).1 0 (geodetic id p2).2 false
  obtain ⟨a, b, rfl⟩ := List.length_eq_two.mp (by simpa using congrArg List.length l1 : qs.length = 2)
  obtain ⟨c, rfl⟩ := List.length_eq_one_iff.mp (by simpa using congrArg List.length l2 : qs'.length = 1)
  simp only [List.map_cons, List.map_nil, List.cons.injEq, and_true] at l1 l2
  have hb : b = q2 := by
    have : pointQd twoEpochs (.fin 2000) (geodetic id p2).1 0 (geodetic id p2).2 false = some b := l1.2.symm
    rw [c2] at this; exact (Option.some.inj this).symm
  have hc : c = q := by
    have : pointQd twoEpochs (.fin 2000.001) (geodetic id p2).1 0 (geodetic id p2).2 false = some c := l2.symm
    rw [c3] at this; exact (Option.some.inj this).symm
  refine ⟨p1, p2, a, b, c, m, m', e1, e2, ?_⟩
  rw [hb, hc]
  intro heq
  rw [heq] at d2
  exact absurd (d3.mp (d2.mpr rfl)) (by norm_num)


/-- C48: a NaN time is never loaded: a single point with a NaN time is evaluated, without any error, with the
file and the epoch of the last successful load, whatever the file asked for. -/
theorem C48_nan_stale {sngl : ℝ → ℝ} {fs : F → Option (Table ℝ)} {m : Mod F ℝ} (hm : Loaded fs m) (junk : ℕ → ℝ) (file : F) (vec : Bool) (p : FPt)
    (halt : (geodetic sngl p).2 ≠ -999) :
    ∃ q m', evalQd (env sngl fs junk) file vec [⟨.nan, p.rad, p.lat, p.lon⟩] m = some ([q], m') ∧
      pointQd m.table m.epochLast (geodetic sngl p).1 (sngl p.lon) (geodetic sngl p).2 vec = some q := by
  obtain ⟨q, m', e1, _, _, _, _, h6⟩ := apxg2q_spec hm (convrt4 libm (sngl p.lat) (sngl p.rad)).1 (sngl p.lon)
    (convrt4 libm (sngl p.lat) (sngl p.rad)).2 vec
  refine ⟨q, m', ?_, h6 halt⟩
  have hc : changed (snglX (env sngl fs junk).sngl (X.nan : X ℝ)) epochNone = false := rfl
  have e1' : apxg2q (env sngl fs junk).L (env sngl fs junk).p00 m (convrt4 (env sngl fs junk).L ((env sngl fs junk).sngl p.lat) ((env sngl fs junk).sngl p.rad)).1
      ((env sngl fs junk).sngl p.lon) (convrt4 (env sngl fs junk).L ((env sngl fs junk).sngl p.lat) ((env sngl fs junk).sngl p.rad)).2 vec = some (q, m') := e1
  simp only [evalQd, loop, step, hc, Bool.false_eq_true, if_false, Option.bind_eq_bind, Option.bind_some, e1']

/-- C48: the same in a fresh process: nothing is loaded and the outputs are not set. -/
theorem C48_nan_undefined (sngl : ℝ → ℝ) (fs : F → Option (Table ℝ)) (junk junk' : ℕ → ℝ) (file : F) (vec : Bool) (r la lo : ℝ) :
    evalQd (env sngl fs junk) file vec [⟨.nan, r, la, lo⟩] (Mod.init junk') = none := by
  have hc : changed (snglX (env sngl fs junk).sngl (X.nan : X ℝ)) epochNone = false := rfl
  have ha : ∀ a b c d, apxg2q (env sngl fs junk).L (env sngl fs junk).p00 (Mod.init (F := F) junk') a b c d = none := by
    intro a b c d; unfold apxg2q; rw [if_pos (show (Mod.init (F := F) junk').loadflag = true from rfl)]
  simp only [evalQd, loop, step, hc, Bool.false_eq_true, if_false, Option.bind_eq_bind, Option.bind_some, ha, Option.bind_none]

/-- C56: a file is read once: when it is changed (`fs'`), the calls with the same name go on with the contents of the first read. -/
theorem C56_file_cached {sngl : ℝ → ℝ} {fs : F → Option (Table ℝ)} {m : Mod F ℝ} (hm : Loaded fs m) {file : F} (hfile : m.fileLast = some file)
    (fs' : F → Option (Table ℝ)) (junk : ℕ → ℝ) (vec : Bool) (p : FPt) (halt : (geodetic sngl p).2 ≠ -999)
    (h0 : oneDay < |sngl p.time + 9999.9|) :
    ∃ q m', evalQd (env sngl fs' junk) file vec [p.pt] m = some ([q], m') ∧ qdAt sngl m.table vec (sngl p.time) p = some q := by
  have hm' : Loaded (fun f => if f = file then some m.table else fs' f) m := by
    refine ⟨hm.flag, hm.ok, ⟨file, hfile, by simp⟩, hm.coef, hm.cache, hm.work⟩
  obtain ⟨q, m1, u, e1, l1, t1, p1, q1, hu⟩ := qdStep_spec (junk := junk) (sngl := sngl) (fs := fun f => if f = file then some m.table else fs' f) (file := file) (t := m.table) (by simp)
    hm.ok vec p halt (m := m) (o := -99999 / 10) (Or.inl ⟨Or.inr hm', by
      rw [show (-99999 / 10 : ℝ) = -9999.9 by norm_num, sub_neg_eq_add]; exact h0⟩)
  rw [if_pos (by rw [show (-99999 / 10 : ℝ) = -9999.9 by norm_num, sub_neg_eq_add]; exact h0)] at hu
  subst hu
  refine ⟨q, m1, ?_, q1⟩
  have hl : ∀ e : X ℝ, loadapxsh fs' junk m file e = loadapxsh (fun f => if f = file then some m.table else fs' f) junk m file e := by
    intro e
    have hr : (decide (m.fileLast ≠ some file) || m.loadflag) = false := by rw [hfile, hm.flag]; simp
    unfold loadapxsh
    simp only [hr]
    rfl
  have hstep : step (env sngl fs' junk) file vec (m, .fin (-99999 / 10)) p.pt =
      step (env sngl (fun f => if f = file then some m.table else fs' f) junk) file vec (m, .fin (-99999 / 10)) p.pt := by
    unfold step
    have := hl (snglX sngl p.pt.time)
    simp only [env] at *
    rw [this]
    rfl
  simp only [evalQd, epochNone, loop, hstep, e1, Option.bind_eq_bind, Option.bind_some]

/-- The first load. -/
theorem loadapxsh_fresh {fs : F → Option (Table ℝ)} (junk : ℕ → ℝ) {m : Mod F ℝ} (hm : m.loadflag = true) {file : F} {t : Table ℝ}
    (hf : fs file = some t) (ht : TableOk t) {e : X ℝ} (he : e ≠ .nan) :
    ∃ w, loadapxsh fs junk m file e = some { allocate junk t m with
      qx := blend t w 0, qy := blend t w 1, qz := blend t w 2, altlast := -999, loadflag := false, fileLast := some file, epochLast := e } := by
  obtain ⟨w, hw⟩ := weights_some ht.sorted ht.epochs e he
  refine ⟨w, ?_⟩
  have hr : (decide (m.fileLast ≠ some file) || m.loadflag) = true := by rw [hm, Bool.or_true]
  have hi : interpolate (allocate junk t m) e = some { allocate junk t m with
      qx := blend t w 0, qy := blend t w 1, qz := blend t w 2, altlast := -999 } := by
    unfold interpolate
    rw [show (allocate junk t m).table = t from rfl, hw]; rfl
  unfold loadapxsh
  simp only [hr, if_true, hf, Option.map_some, Option.bind_eq_bind, Option.bind_some, Bool.or_true, hi]

/-- The point on the equator, 999 km below the surface. -/
noncomputable def deepPoint : FPt := ⟨2000, 5379.137, 0, 0⟩

theorem deepPoint_lat (a : ℝ) : ∃ (q : Qd ℝ) (m : Mod Unit ℝ) (r : ℝ),
    evalQd (env id (fun _ : Unit => some twoEpochs) (fun i => if i = 0 then a else 0)) () false [deepPoint.pt] (Mod.init (fun _ => 0)) = some ([q], m) ∧
    0 ≤ r ∧ r * Real.sin (q.lat * (Real.pi / 180)) = a * Real.sqrt (1 / 2) := by
  set junk : ℕ → ℝ := fun i => if i = 0 then a else 0 with hj
  have g1 : oneDay < |(2000 : ℝ) - -99999 / 10| := by unfold oneDay; rw [abs_of_pos] <;> norm_num
  obtain ⟨w, hl⟩ := loadapxsh_fresh (fs := fun _ : Unit => some twoEpochs) junk (m := Mod.init (fun _ => 0)) rfl (file := ()) rfl twoEpochs_ok
    (e := .fin 2000) (by simp)
  set m1 : Mod Unit ℝ := { allocate junk twoEpochs (Mod.init (fun _ => 0)) with
      qx := blend twoEpochs w 0, qy := blend twoEpochs w 1, qz := blend twoEpochs w 2, altlast := -999, loadflag := false, fileLast := some (), epochLast := .fin 2000 } with hm1
  have hwork : WorkOk 1 1 m1.work := ⟨⟨⟨rfl, rfl⟩, ⟨rfl, rfl⟩, ⟨rfl, rfl⟩⟩, ⟨rfl, fun _ _ _ => rfl⟩, ⟨rfl, rfl, rfl⟩⟩
  obtain ⟨s, w', e1, -, hs⟩ := evalPoint_spec (le_refl 1) (le_refl 1) hwork m1.col 0 0 false
  have hg : convrt4 libm (id deepPoint.lat) (id deepPoint.rad) = (0, -999) := by
    rw [show id deepPoint.lat = 0 from rfl, convrt4_equator]
    simp only [deepPoint, id]; norm_num
  have ha : apxg2q libm (Real.sqrt (1 / 2)) m1 0 0 (-999) false =
      some (outputs libm m1.col s ((90 - 0) * dtor libm) false, { m1 with work := w' }) := by
    unfold apxg2q
    rw [if_neg (by simp [hm1]), if_neg (by simp [hm1])]
    have : evalPoint libm (Real.sqrt (1 / 2)) m1.table.nmax m1.table.mmax m1.work m1.col 0 0 false = some (outputs libm m1.col s ((90 - 0) * dtor libm) false, w') := e1
    simp only [Option.bind_eq_bind, Option.bind_some, this]
  have hstep : step (env id (fun _ : Unit => some twoEpochs) junk) () false (Mod.init (fun _ => 0), epochNone) deepPoint.pt =
      some (outputs libm m1.col s ((90 - 0) * dtor libm) false, { m1 with work := w' }, .fin 2000) := by
    unfold step
    have hc : changed (snglX (env id (fun _ : Unit => some twoEpochs) junk).sngl deepPoint.pt.time) epochNone = true := by
      have := changed_fin 2000 (-99999 / 10)
      rw [decide_eq_true g1] at this
      exact this
    have hl' : loadapxsh (env id (fun _ : Unit => some twoEpochs) junk).fs (env id (fun _ : Unit => some twoEpochs) junk).junk (Mod.init (fun _ => 0)) ()
        (snglX (env id (fun _ : Unit => some twoEpochs) junk).sngl deepPoint.pt.time) = some m1 := hl
    have hg' : convrt4 (env id (fun _ : Unit => some twoEpochs) junk).L ((env id (fun _ : Unit => some twoEpochs) junk).sngl deepPoint.pt.lat)
        ((env id (fun _ : Unit => some twoEpochs) junk).sngl deepPoint.pt.rad) = (0, -999) := hg
    have ha' : apxg2q (env id (fun _ : Unit => some twoEpochs) junk).L (env id (fun _ : Unit => some twoEpochs) junk).p00 m1 0
        ((env id (fun _ : Unit => some twoEpochs) junk).sngl deepPoint.pt.lon) (-999) false = _ := ha
    simp only [hc, if_true, hl', Option.map_some, Option.bind_eq_bind, Option.bind_some, hg', ha']
    rfl
  refine ⟨outputs libm m1.col s ((90 - 0) * dtor libm) false, { m1 with work := w' }, Real.sqrt (Real.sqrt (Apex.dot s.sh m1.col.x * Apex.dot s.sh m1.col.x + Apex.dot s.sh m1.col.y * Apex.dot s.sh m1.col.y) *
      Real.sqrt (Apex.dot s.sh m1.col.x * Apex.dot s.sh m1.col.x + Apex.dot s.sh m1.col.y * Apex.dot s.sh m1.col.y) +
      Apex.dot s.sh m1.col.z * Apex.dot s.sh m1.col.z), ?_, Real.sqrt_nonneg _, ?_⟩
  · unfold evalQd loop
    simp only [hstep, Option.bind_eq_bind, Option.bind_some, loop]
  · have hz : Apex.dot s.sh m1.col.z = a * Real.sqrt (1 / 2) := by
      rw [(hs _).1, show m1.col.z.at' = junk from rfl]
      simp [shSeries, ca, cb, off, hj, Finset.sum_range_succ, fullP_zero]
    have hlat : (outputs libm m1.col s ((90 - 0) * dtor libm) false).lat = atan2 (Apex.dot s.sh m1.col.z)
        (Real.sqrt (Apex.dot s.sh m1.col.x * Apex.dot s.sh m1.col.x + Apex.dot s.sh m1.col.y * Apex.dot s.sh m1.col.y)) / (Real.pi / 180) := rfl
    have hd : (0 : ℝ) < Real.pi / 180 := by have := Real.pi_pos; positivity
    rw [hlat, div_mul_cancel₀ _ hd.ne', sin_atan2, hz]

/-- C56: the coefficients of a point at the altitude of exactly -999 km are not computed after a load: the first such point is evaluated
with whatever is in the allocated memory. -/
theorem C56_altitude_stale : ∃ (q q' : Qd ℝ) (m m' : Mod Unit ℝ) (p : FPt) (junk junk' : ℕ → ℝ),
    evalQd (env id (fun _ : Unit => some twoEpochs) junk) () false [p.pt] (Mod.init (fun _ => 0)) = some ([q], m) ∧
    evalQd (env id (fun _ : Unit => some twoEpochs) junk') () false [p.pt] (Mod.init (fun _ => 0)) = some ([q'], m') ∧
    q.lat ≠ q'.lat := by
  obtain ⟨q, m, r, e, h0, h⟩ := deepPoint_lat 1
  obtain ⟨q', m', r', e', h0', h'⟩ := deepPoint_lat (-1)
  refine ⟨q, q', m, m', deepPoint, _, _, e, e', ?_⟩
  intro heq
  have hs : 0 < Real.sqrt (1 / 2) := Real.sqrt_pos.mpr (by norm_num)
  rw [heq] at h
  rcases le_or_gt (Real.sin (q'.lat * (Real.pi / 180))) 0 with hn | hn
  · have := mul_nonpos_of_nonneg_of_nonpos h0 hn; linarith
  · have := mul_nonneg h0' hn.le; linarith

/-! ### Examples: the hypotheses hold for the table above, a point 621.863 km above the equator -/

example : TableOk twoEpochs := twoEpochs_ok

example : ∃ q, pointQd twoEpochs (.fin 2000.5) 10 20 300 true = some q ∧ -90 ≤ q.lat := by
  obtain ⟨q, h1, h2, _⟩ := C58_coordinates twoEpochs_ok 2000.5 10 20 300 true (twoEpochs_vector 2000.5 (by norm_num) (by norm_num) 300)
  exact ⟨q, h1, h2⟩

example : ∃ q latn, pointQd twoEpochs (.fin 2000.5) 10 20 300 true = some q ∧
    q.f11 = (radiusMean + 300) * Real.sqrt (1 * Real.sqrt (1 / 2) * (1 * Real.sqrt (1 / 2)) + 0 * Real.sqrt (1 / 2) * (0 * Real.sqrt (1 / 2)) +
      (2000.5 - 2000) * Real.sqrt (1 / 2) * ((2000.5 - 2000) * Real.sqrt (1 / 2))) * latn / (radiusM (10 * (Real.pi / 180)) + 300) := by
  obtain ⟨q, latn, _, _, _, h1, _, _, _, _, _, _, h2, _⟩ := C59_base_vectors twoEpochs_ok 2000.5 10 20 300
    (twoEpochs_vector 2000.5 (by norm_num) (by norm_num) 300) (by norm_num) (by norm_num) (Or.inl (by simp))
  exact ⟨q, latn, h1, by simpa using h2⟩

example : ∃ qs m, evalQd (env id (fun _ : Unit => some twoEpochs) (fun _ => 7)) () true
    ([⟨2000.25, 7000, 0, 0⟩, ⟨2000.75, 7000, 0, 20⟩, ⟨2000.25, 7000, 0, 30⟩].map FPt.pt) (Mod.init (fun _ => 3)) = some (qs, m) ∧ qs.length = 3 := by
  obtain ⟨qs, m, e, h, _⟩ := C48_epochs twoEpochs_env rfl true [⟨2000.25, 7000, 0, 0⟩, ⟨2000.75, 7000, 0, 20⟩, ⟨2000.25, 7000, 0, 30⟩] (by
    intro p hp
    have : geodetic id p = (0, 7000 - 6378.137) := by
      simp only [List.mem_cons, List.not_mem_nil, or_false] at hp
      rcases hp with rfl | rfl | rfl <;> exact convrt4_equator 7000
    rw [this]; norm_num) (by
    intro p hp; simp at hp; subst hp; simp only [id, oneDay]; rw [abs_of_pos] <;> norm_num) (fun _ => 7) (Reachable.init (sngl := id) (fun _ => 3))
  exact ⟨qs, m, e, h⟩

end Verif.Props
