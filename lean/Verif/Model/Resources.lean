/-!
# Memory and references in the functions of the extension modules

The functions called from Python convert their arguments to NumPy arrays (new references), allocate the
output arrays and auxiliary memory, and leave through a label `exit` which releases what was acquired.
Here the functions are written with what concerns this: which variable holds what, which call may fail,
and what is done at the labels.  What the calls compute is not in this model (it is in the others): every
call which may fail has its outcome from `Env`, so that a theorem for all `Env` covers every path, the
failures of the memory allocation included.

Simplifications:
* every acquired reference has its own number, also if two variables refer to the same object (the
  reference counts of the objects are the numbers of the references not released);
* a check of arguments is a call which may fail, and does so with an exception;
* loops over the points of an array are one use of each array and of the memory used in it;
* references which the caller owns (`PyObject *obj_...`) are left out, they are never released.
-/

namespace Verif.Res

/-- Fields of `COEF_SET` which own something (pymm_shevaltemp.h:68-82). -/
inductive CsField where
  | offset | ct | cv | cm
deriving DecidableEq, Repr

/-- The variables and fields of the C functions which own something; `tuple` is the new tuple in `retval`. -/
inductive V where
  | arr_x | arr_v | arr_i | arr_in | arr_out | arr_t | arr_t0 | arr_c0 | arr_c | arr_t1 | arr_t2
  | arr_lat | arr_lon | arr_dlat | arr_p | arr_dp | arr_cos_sin | arr_rad | arr_rrp | arr_coef | arr_lp
  | arr_ldp | arr_lcs | arr_pot | arr_grd | arr_scale | arr_mjd | arr_dtt | arr_pres | arr_temp
  | arr_qdlon | arr_qdlat | arr_time | arr_mlt | arr_gdlat | arr_gdlon | arr_gclat | arr_gclon | arr_gcrad
  | arr_f11 | arr_f12 | arr_f21 | arr_f22 | arr_f
  | arr_ct | arr_cv | arr_cm | arr_ab
  | psqrt | prsqrt
  | model_lp | model_ldp | model_lcs | model_rrp | model_psqrt | model_prsqrt | model_coef
  | f2d_tmp | f2d_1 | f2d_2 | f2d_12
  | coefset_ab | coefset_cm | coefset_offset
  | coefsets (i : Nat) (f : CsField)
  | tuple
deriving DecidableEq, Repr

/-- A reference to a Python object, or memory from `malloc`. -/
inductive Kind where
  | ref | block
deriving DecidableEq, Repr

/-- What a variable points to, from its declaration. -/
def kindOf : V → Kind
  | .psqrt | .prsqrt | .model_lp | .model_ldp | .model_lcs | .model_rrp | .model_psqrt | .model_prsqrt
  | .model_coef | .f2d_tmp | .f2d_1 | .f2d_2 | .f2d_12 | .coefset_offset | .coefsets _ .offset => .block
  | _ => .ref

/-- Outcome (success or failure) of the calls, in the order of the calls, and whether there is memory for
the tuple of the results (the functions make at most one). -/
structure Env where
  call : Nat → Bool
  tuple : Bool

/-- State of a call: number of calls made, what is acquired and not released, the variables (null or
the number of what they point to), the returned pointer, whether an exception is set, and the variable
`ncoefset` of `shevaltemp`. -/
structure St where
  t : Nat
  own : Nat → Option Kind
  loc : V → Option Nat
  ret : Option Nat
  exc : Bool
  ncoefset : Nat

/-- Result of a part of a function: it goes on, it jumps to the label, or the behaviour is undefined
(release of something not owned, use of a null pointer or of something released). -/
inductive Out (α : Type) where
  | ok (a : α) (s : St)
  | jump (s : St)
  | fault

def M (α : Type) := Env → St → Out α

instance : Monad M where
  pure a := fun _ s => .ok a s
  bind m f := fun e s =>
    match m e s with
    | .ok a s' => f a e s'
    | .jump s' => .jump s'
    | .fault => .fault

/-- `goto exit` or `goto error` -/
def goto : M Unit := fun _ s => .jump s

/-- `if (NULL == (v = f(...))) goto exit;` with a function `f` giving a new reference or new memory, and
setting an exception if it fails (for `malloc` the exception is set by the block of the `if`). -/
def acquire (v : V) : M Unit := fun e s =>
  if e.call s.t then
    .ok () { s with t := s.t + 1,
                    own := fun k => if k = s.t then some (kindOf v) else s.own k,
                    loc := fun w => if w = v then some s.t else s.loc w }
  else
    .jump { s with t := s.t + 1, loc := fun w => if w = v then none else s.loc w, exc := true }

/-- Several of them, one after the other -/
def acquireAll : List V → M Unit
  | [] => pure ()
  | v :: vs => do acquire v; acquireAll vs

/-- `if (<wrong argument>) { PyErr_Format(...); goto exit; }` and calls which set the exception themselves
and give no new reference. -/
def check : M Unit := fun e s =>
  if e.call s.t then .ok () { s with t := s.t + 1 } else .jump { s with t := s.t + 1, exc := true }

/-- `PyObject_IsTrue(obj)`: -1 with an exception if the object has no truth value (pymm_sheval.h:176 and
others take any result other than zero as true and go on). -/
def isTrue (hasTruthValue : Bool) : M Unit := fun _ s =>
  .ok () { s with exc := s.exc || !hasTruthValue }

/-- Access to what a pointer points to. -/
def use (v : V) : M Unit := fun _ s =>
  match s.loc v with
  | none => .fault
  | some k => if s.own k = some (kindOf v) then .ok () s else .fault

def useAll : List V → M Unit
  | [] => pure ()
  | v :: vs => do use v; useAll vs

/-- `if (v) Py_DECREF(v);` for references, `if (v) free(v);` for memory -/
def release (v : V) : M Unit := fun _ s =>
  match s.loc v with
  | none => .ok () s
  | some k =>
    if s.own k = some (kindOf v) then .ok () { s with own := fun j => if j = k then none else s.own j }
    else .fault

def releaseAll : List V → M Unit
  | [] => pure ()
  | v :: vs => do release v; releaseAll vs

/-- `memset(..., 0, ...)` of a structure with these fields, or the initialisation of variables with
`NULL` -/
def reset (vs : List V) : M Unit := fun _ s =>
  .ok () { s with loc := fun w => if w ∈ vs then none else s.loc w }

/-- Passing a reference to a structure: `coefset->arr_ct = arr_ct;` by the last statement of a function,
whose own variable is gone afterwards. -/
def move (src dst : V) : M Unit := fun _ s =>
  .ok () { s with loc := fun w => if w = dst then s.loc src else if w = src then none else s.loc w }

/-- `retval = (PyObject*) v;` -/
def setRet (v : V) : M Unit := fun _ s => .ok () { s with ret := s.loc v }

/-- `if (!retval && v) Py_DECREF(v);` -/
def releaseUnlessReturned (v : V) : M Unit := fun e s =>
  match s.ret with
  | some _ => .ok () s
  | none => release v e s

/-- `retval = Py_BuildValue("NN...", v, ...)`: a new tuple, which takes the references over.  If there is
no memory for the tuple, the references are released (Python/modsupport.c, `do_mktuple` calls
`do_ignore`), an exception is set and the value is null. -/
def buildTuple (vs : List V) : M Unit := do
  useAll vs
  releaseAll vs
  fun e s =>
    if e.tuple then
      .ok () { s with t := s.t + 1,
                      own := fun k => if k = s.t then some .ref else s.own k,
                      loc := fun w => if w = .tuple then some s.t else s.loc w,
                      ret := some s.t }
    else .ok () { s with t := s.t + 1, exc := true, ret := none }

/-- A function with a label: the body, then the statements at the label in any case. -/
def withExit (body exit : M Unit) : M Unit := fun e s =>
  match body e s with
  | .ok _ s' => exit e s'
  | .jump s' => exit e s'
  | .fault => .fault

/-- A function with a label `error` before which 0 (here `false`) is returned, and after which 1. -/
def onError (body error : M Unit) : M Bool := fun e s =>
  match body e s with
  | .ok _ s' => .ok false s'
  | .jump s' =>
    match error e s' with
    | .ok _ s'' => .ok true s''
    | .jump s'' => .jump s''
    | .fault => .fault
  | .fault => .fault

/-- `if (f(...)) goto exit;` -/
def failIf (m : M Bool) : M Unit := fun e s =>
  match m e s with
  | .ok true s' => .jump s'
  | .ok false s' => .ok () s'
  | .jump s' => .jump s'
  | .fault => .fault

/-- A function which ends with `return g(...)`, here with the result of the part before its label -/
def orElseReturn (m g : M Bool) : M Bool := fun e s =>
  match m e s with
  | .ok true s' => .ok true s'
  | .ok false s' => g e s'
  | .jump s' => .jump s'
  | .fault => .fault

/-- `(obj == NULL) || PyObject_IsTrue(obj)` and the like: an optional argument of the function -/
def optionalFlag : Option Bool → M Unit
  | none => pure ()
  | some b => isTrue b

/-- Call with the returned value not looked at -/
def ignoreResult (m : M Bool) : M Unit := fun e s =>
  match m e s with
  | .ok _ s' => .ok () s'
  | .jump s' => .jump s'
  | .fault => .fault

def useIf (c : Bool) (vs : List V) : M Unit := if c then useAll vs else pure ()

/-- The state when Python calls the function: everything in `{0}` or `NULL` by its declaration. -/
def St.init : St := ⟨0, fun _ => none, fun _ => none, none, false, 0⟩

/-! ### Functions with one output array -/

open V

/-- `bisect` (pymm_bisect.h:59-119) -/
def bisect : M Unit := withExit
  (do
    check; check
    acquire arr_v
    acquire arr_x
    use arr_x
    acquire arr_i
    useAll [arr_x, arr_i, arr_v]
    setRet arr_i)
  (do
    release arr_x
    release arr_v
    releaseUnlessReturned arr_i)

/-- `interp` (pymm_interp.h:71-198); `extrapolate` is any object -/
def interp (extrapolate : Option Bool) : M Unit := withExit
  (do
    check
    optionalFlag extrapolate
    check
    acquire arr_t
    acquire arr_t0
    acquire arr_c0
    useAll [arr_t0, arr_c0]
    check
    use arr_t0
    check
    useAll [arr_t, arr_c0]
    acquire arr_c
    useAll [arr_t, arr_c, arr_t0, arr_c0]
    setRet arr_c)
  (do
    release arr_t
    release arr_t0
    release arr_c0
    releaseUnlessReturned arr_c)

/-- `convert` (pymm_cconv.h:148-205); `same` is `ct_in == ct_out`, for which the function returns before
the label -/
def convert (same : Bool) : M Unit := fun e s =>
  match (do
      check; check; check
      acquire arr_in
      use arr_in
      check
      use arr_in
      check : M Unit) e s with
  | .ok _ s' =>
    (if same then setRet arr_in
    else withExit
      (do
        use arr_in
        acquire arr_out
        useAll [arr_in, arr_out]
        setRet arr_out)
      (do
        release arr_in
        releaseUnlessReturned arr_out)) e s'
  | .jump s' =>
    (do
      release arr_in
      releaseUnlessReturned arr_out : M Unit) e s'
  | .fault => .fault

/-- `vrot_sph2geod` (pymm_vrot_sph2geod.h:88-145) -/
def vrotSph2geod : M Unit := withExit
  (do
    check
    acquire arr_in
    acquire arr_dlat
    use arr_in
    check
    use arr_in
    check
    useAll [arr_in, arr_dlat]
    check
    use arr_in
    acquire arr_out
    useAll [arr_in, arr_dlat, arr_out]
    setRet arr_out)
  (do
    release arr_in
    release arr_dlat
    releaseUnlessReturned arr_out)

/-- `vrot_sph2cart` and `vrot_cart2sph` (pymm_vrot_sph2cart.h:92-160, pymm_vrot_cart2sph.h:92-160) -/
def vrotSphCart : M Unit := withExit
  (do
    check
    acquire arr_in
    acquire arr_lat
    acquire arr_lon
    use arr_in
    check
    use arr_in
    check
    useAll [arr_in, arr_lat]
    check
    useAll [arr_in, arr_lon]
    check
    use arr_in
    acquire arr_out
    useAll [arr_in, arr_lat, arr_lon, arr_out]
    setRet arr_out)
  (do
    release arr_in
    release arr_lat
    release arr_lon
    releaseUnlessReturned arr_out)

/-- `mjd2000_to_decimal_year`, `mjd2000_to_year_fraction`, `decimal_year_to_mjd2000`
(pytimeconv_mjd2000_to_decimal_year.h:74-123 and the same lines of the others) -/
def timeconv : M Unit := withExit
  (do
    check
    acquire arr_in
    use arr_in
    check
    use arr_in
    acquire arr_out
    useAll [arr_in, arr_out]
    setRet arr_out)
  (do
    release arr_in
    releaseUnlessReturned arr_out)

/-- `loncossin` (pymm_loncossin.h:55-122) -/
def loncossin : M Unit := withExit
  (do
    check; check
    acquire arr_lon
    use arr_lon
    acquire arr_cos_sin
    setRet arr_cos_sin
    useAll [arr_lon, arr_cos_sin])
  (do
    release arr_lon
    releaseUnlessReturned arr_cos_sin)

/-- `relradpow` (pymm_relradpow.h:69-149); `isInternal` is the optional flag -/
def relradpow (isInternal : Option Bool) : M Unit := withExit
  (do
    check
    optionalFlag isInternal
    check; check
    acquire arr_rad
    use arr_rad
    acquire arr_rrp
    setRet arr_rrp
    useAll [arr_rad, arr_rrp])
  (do
    release arr_rad
    releaseUnlessReturned arr_rrp)

/-- `spharpot` (pymm_spharpot.h:65-226) -/
def spharpot : M Unit := withExit
  (do
    check
    acquire arr_rad
    acquire arr_coef
    acquire arr_lp
    acquire arr_rrp
    acquire arr_lcs
    useAll [arr_coef, arr_lp, arr_rrp, arr_lcs]
    check; check
    useAll [arr_rad, arr_coef, arr_lp, arr_rrp, arr_lcs]
    check; check
    acquire arr_pot
    setRet arr_pot
    useAll [arr_pot, arr_rad, arr_coef, arr_lp, arr_rrp, arr_lcs])
  (do
    release arr_rad
    release arr_coef
    release arr_lp
    release arr_rrp
    release arr_lcs
    releaseUnlessReturned arr_pot)

/-- `sphargrd` (pymm_sphargrd.h:69-255) -/
def sphargrd (isInternal : Option Bool) : M Unit := withExit
  (do
    check
    optionalFlag isInternal
    acquire arr_lat
    acquire arr_coef
    acquire arr_lp
    acquire arr_ldp
    acquire arr_rrp
    acquire arr_lcs
    useAll [arr_coef, arr_lp, arr_ldp, arr_rrp, arr_lcs]
    check; check
    useAll [arr_lat, arr_coef, arr_lp, arr_ldp, arr_rrp, arr_lcs]
    check; check
    acquire arr_grd
    setRet arr_grd
    useAll [arr_grd, arr_lat, arr_coef, arr_lp, arr_ldp, arr_rrp, arr_lcs])
  (do
    release arr_lat
    release arr_coef
    release arr_lp
    release arr_ldp
    release arr_rrp
    release arr_lcs
    releaseUnlessReturned arr_grd)

/-- `sunpos` (pysunpos.h:124-243) -/
def sunpos : M Unit := withExit
  (do
    check
    acquire arr_mjd
    acquire arr_lat
    acquire arr_lon
    acquire arr_rad
    acquire arr_dtt
    useAll [arr_mjd, arr_lat, arr_lon, arr_rad, arr_dtt]
    check; check; check; check; check; check
    acquire arr_out
    useAll [arr_mjd, arr_lat, arr_lon, arr_rad, arr_dtt, arr_out]
    setRet arr_out)
  (do
    release arr_mjd
    release arr_lat
    release arr_lon
    release arr_rad
    release arr_dtt
    releaseUnlessReturned arr_out)

/-- `sunpos_original` (pysunpos_original.h:137-281) -/
def sunposOriginal : M Unit := withExit
  (do
    check
    acquire arr_mjd
    acquire arr_lat
    acquire arr_lon
    acquire arr_rad
    acquire arr_dtt
    acquire arr_pres
    acquire arr_temp
    useAll [arr_mjd, arr_lat, arr_lon, arr_rad, arr_dtt, arr_pres, arr_temp]
    check; check; check; check; check; check; check; check
    acquire arr_out
    useAll [arr_mjd, arr_lat, arr_lon, arr_rad, arr_dtt, arr_pres, arr_temp, arr_out]
    setRet arr_out)
  (do
    release arr_mjd
    release arr_lat
    release arr_lon
    release arr_rad
    release arr_dtt
    release arr_pres
    release arr_temp
    releaseUnlessReturned arr_out)

/-- `eval_mlt` (pyqd_eval_mlt.h:48-112); the call of `c_eval_mlt` ends with a status -/
def evalMlt : M Unit := withExit
  (do
    check
    acquire arr_qdlon
    acquire arr_time
    useAll [arr_qdlon, arr_time]
    check
    acquire arr_mlt
    useAll [arr_mlt, arr_qdlon, arr_time]
    check
    setRet arr_mlt)
  (do
    release arr_qdlon
    release arr_time
    releaseUnlessReturned arr_mlt)

/-! ### 2D Fourier series -/

/-- The fields of `FOURIER_2D` which own memory (pymm_fourier2d.h:47-59) -/
def f2dFields : List V := [f2d_tmp, f2d_1, f2d_2, f2d_12]

/-- `_fourier2d_destroy` (pymm_fourier2d.h:312-320) -/
def fourier2dDestroy : M Unit := do
  releaseAll [f2d_tmp, f2d_1, f2d_2, f2d_12]
  reset f2dFields

/-- `_fourier2d_init` (pymm_fourier2d.h:324-384) -/
def fourier2dInit : M Bool := onError
  (do
    reset f2dFields
    acquireAll [f2d_tmp, f2d_1, f2d_2, f2d_12])
  fourier2dDestroy

/-- `fourier2d` (pymm_fourier2d.h:104-221) -/
def fourier2d : M Unit := withExit
  (do
    check
    acquire arr_t1
    acquire arr_t2
    acquire arr_c0
    useAll [arr_t1, arr_t2]
    check; check
    use arr_c0
    check
    useAll [arr_t1, arr_c0]
    acquire arr_c
    use arr_c0
    failIf fourier2dInit
    useAll [arr_t1, arr_t2, arr_c, arr_c0]
    useAll f2dFields
    setRet arr_c)
  (do
    fourier2dDestroy
    release arr_t1
    release arr_t2
    release arr_c0
    releaseUnlessReturned arr_c)

/-! ### Functions with several output arrays -/

/-- `legendre` (pymm_legendre.h:65-161); the output arrays, filled at the end of the body, are then kept alive
by the tuple (not modelled) -/
def legendre : M Unit := withExit
  (do
    check; check
    acquire arr_lat
    use arr_lat
    acquire arr_p
    acquire arr_dp
    acquire psqrt
    acquire prsqrt
    buildTuple [arr_p, arr_dp]
    (fun e s => if s.ret = none then goto e s else .ok () s : M Unit)
    useAll [arr_lat, psqrt, prsqrt])
  (do
    release prsqrt
    release psqrt
    release arr_lat
    releaseUnlessReturned arr_p
    releaseUnlessReturned arr_dp)

/-- `eval_subsol` (pyqd_eval_subsol.h:48-111) -/
def evalSubsol : M Unit := withExit
  (do
    check
    acquire arr_time
    use arr_time
    acquire arr_gdlat
    acquire arr_gdlon
    useAll [arr_gdlat, arr_gdlon, arr_time]
    check
    buildTuple [arr_gdlat, arr_gdlon])
  (do
    release arr_time
    releaseUnlessReturned arr_gdlat
    releaseUnlessReturned arr_gdlon)

/-- The further output arrays, the evaluation and the result of `eval_qdlatlon`
(pyqd_eval_qdlatlon.h:137-219) -/
def evalQdlatlonOutputs : Bool → M Unit
  | true => do
    acquire arr_f11
    acquire arr_f12
    acquire arr_f21
    acquire arr_f22
    acquire arr_f
    useAll [arr_qdlat, arr_qdlon, arr_f11, arr_f12, arr_f21, arr_f22, arr_f, arr_time, arr_gcrad,
      arr_gclat, arr_gclon]
    check
    buildTuple [arr_qdlat, arr_qdlon, arr_f11, arr_f12, arr_f21, arr_f22, arr_f]
  | false => do
    useAll [arr_qdlat, arr_qdlon, arr_time, arr_gcrad, arr_gclat, arr_gclon]
    check
    buildTuple [arr_qdlat, arr_qdlon]

/-- `eval_qdlatlon` (pyqd_eval_qdlatlon.h:58-241); `evalBase` is the value of the optional flag, an object
without truth value counts as false (line 101) -/
def evalQdlatlon (evalBase : Bool) (hasTruthValue : Bool) : M Unit := withExit
  (do
    check; check
    isTrue hasTruthValue
    acquire arr_gclat
    acquire arr_gclon
    acquire arr_gcrad
    acquire arr_time
    useAll [arr_gclat, arr_gclon, arr_gcrad, arr_time]
    check; check; check
    acquire arr_qdlat
    acquire arr_qdlon
    evalQdlatlonOutputs (evalBase && hasTruthValue))
  (do
    release arr_gclat
    release arr_gclon
    release arr_gcrad
    release arr_time
    releaseUnlessReturned arr_qdlat
    releaseUnlessReturned arr_qdlon
    releaseUnlessReturned arr_f11
    releaseUnlessReturned arr_f12
    releaseUnlessReturned arr_f21
    releaseUnlessReturned arr_f22
    releaseUnlessReturned arr_f)

/-! ### Spherical harmonics -/

/-- `mode`: potential, gradient or both -/
inductive Mode where
  | pot | grd | both
deriving DecidableEq, Repr

/-- The fields of `MODEL` which own memory (pymm_sheval.h:72-94) -/
def modelFields : List V := [model_lp, model_ldp, model_lcs, model_rrp, model_psqrt, model_prsqrt]

/-- `_model_destroy` (pymm_sheval.h:610-620) -/
def modelDestroy : M Unit := do
  releaseAll [model_lp, model_ldp, model_lcs, model_rrp, model_psqrt, model_prsqrt]
  reset modelFields

/-- `_model_init` (pymm_sheval.h:625-692) -/
def modelInit : M Bool := onError
  (do
    reset modelFields
    acquireAll [model_lp, model_ldp, model_lcs, model_rrp, model_psqrt, model_prsqrt])
  modelDestroy

/-- Allocation of the output arrays (pymm_sheval.h:268-289 and the others) -/
def newOutputs : Mode → M Unit
  | .pot => acquire arr_pot
  | .grd => acquire arr_grd
  | .both => do acquire arr_pot; acquire arr_grd

/-- The scale factors (pymm_sheval.h:294-302 and the others) -/
def scaleFactors (given : Bool) : M Unit :=
  if given then do
    acquire arr_scale
    use arr_scale
    check
  else pure ()

/-- The `switch(mode)` with the evaluation over the arrays `inputs` and memory `work`
(pymm_sheval.h:312-346 and the others) -/
def evalMode (mode : Mode) (inputs work : List V) : M Unit :=
  match mode with
  | .pot => do
    use arr_pot
    useAll inputs
    useAll work
    setRet arr_pot
  | .grd => do
    use arr_grd
    useAll inputs
    useAll work
    setRet arr_grd
  | .both => do
    useAll [arr_pot, arr_grd]
    useAll inputs
    useAll work
    buildTuple [arr_pot, arr_grd]

/-- `sheval` (pymm_sheval.h:144-360); `isInternal` is the optional flag, `scale` whether the scale factors
of the gradient are given -/
def sheval (mode : Mode) (isInternal : Option Bool) (scale : Bool) : M Unit := withExit
  (do
    check
    optionalFlag isInternal
    check; check; check
    acquire arr_x
    acquire arr_coef
    use arr_coef
    check; check
    useAll [arr_x, arr_coef]
    check; check
    newOutputs mode
    scaleFactors scale
    failIf modelInit
    evalMode mode [arr_x, arr_coef] modelFields)
  (do
    modelDestroy
    release arr_x
    release arr_coef
    release arr_scale
    releaseUnlessReturned arr_grd
    releaseUnlessReturned arr_pot)

/-! ### Time dependent coefficients -/

/-- The fields of the set `i` -/
def coefsetFields (i : Nat) : List V :=
  [coefsets i .offset, coefsets i .ct, coefsets i .cv, coefsets i .cm]

/-- `_coefset_destroy` (pymm_shevaltemp.h:653-663) -/
def coefsetDestroy (i : Nat) : M Unit := do
  releaseAll [coefsets i .offset, coefsets i .ct, coefsets i .cv, coefsets i .cm]
  reset (coefsetFields i)

/-- `_coefset_init` (pymm_shevaltemp.h:667-728) -/
def coefsetInit (i : Nat) : M Bool := onError
  (do
    reset (coefsetFields i)
    move arr_ct (coefsets i .ct)
    move arr_cv (coefsets i .cv)
    move arr_cm (coefsets i .cm)
    acquire (coefsets i .offset)
    useAll [coefsets i .cm, coefsets i .offset]
    check)
  (coefsetDestroy i)

/-- `parse_coefset` (pymm_shevaltemp.h:371-459): its variables are `NULL` at the beginning; the end of the
body is `return _coefset_init(...)`, which is outside of the label. -/
def parseCoefset (i : Nat) : M Bool := do
  reset [arr_ct, arr_cv, arr_cm]
  orElseReturn (onError
    (do
      check; check; check; check; check; check; check
      acquire arr_ct
      acquire arr_cv
      acquire arr_cm
      useAll [arr_cv, arr_cm]
      check
      useAll [arr_cv, arr_ct]
      check
      use arr_cm
      check)
    (do
      release arr_ct
      release arr_cv
      release arr_cm))
    (coefsetInit i)

/-- `for (i = 0; i < n; ++i) if (parse_coefset(...)) goto exit;` (pymm_shevaltemp.h:235-246), from the
set `i` on, `n` sets -/
def parseCoefsets : Nat → Nat → M Unit
  | _, 0 => pure ()
  | i, n + 1 => do
    failIf (parseCoefset i)
    (fun _ s => .ok () { s with ncoefset := s.ncoefset + 1 } : M Unit)
    parseCoefsets (i + 1) n

/-- `for (i = 0; i < ncoefset; ++i) _coefset_destroy(&coefsets[i]);` (pymm_shevaltemp.h:354-358) -/
def destroyCoefsets : Nat → Nat → M Unit
  | _, 0 => pure ()
  | i, n + 1 => do
    coefsetDestroy i
    destroyCoefsets (i + 1) n

/-- `_model_ts_destroy` (pymm_shevaltemp.h:597-604) -/
def modelTsDestroy : M Unit := do
  release model_coef
  modelDestroy
  reset [model_coef]

/-- `_model_ts_init` (pymm_shevaltemp.h:609-643); also `_model_2dfs_init` (pymm_sheval2dfs.h:543-578) -/
def modelTsInit : M Bool := onError
  (do
    reset (model_coef :: modelFields)
    failIf modelInit
    acquire model_coef)
  modelTsDestroy

/-- Use of the sets in the evaluation (pymm_shevaltemp.h:464-475), from the set `i` on, `n` sets -/
def useCoefsets : Nat → Nat → M Unit
  | _, 0 => pure ()
  | i, n + 1 => do
    useAll (coefsetFields i)
    useCoefsets (i + 1) n

/-- `shevaltemp` (pymm_shevaltemp.h:167-368) with `n` sets of coefficients in the list -/
def shevaltemp (n : Nat) (mode : Mode) (isInternal : Option Bool) (scale : Bool) : M Unit := withExit
  (do
    check
    optionalFlag isInternal
    check; check; check
    check; check; check
    parseCoefsets 0 n
    acquire arr_t
    acquire arr_x
    check
    use arr_x
    check
    useAll [arr_t, arr_x]
    check
    scaleFactors scale
    useAll [arr_t, arr_x]
    newOutputs mode
    failIf modelTsInit
    useCoefsets 0 n
    evalMode mode [arr_t, arr_x] (model_coef :: modelFields))
  (do
    modelTsDestroy
    (fun e s => destroyCoefsets 0 s.ncoefset e s : M Unit)
    release arr_t
    release arr_x
    release arr_scale
    releaseUnlessReturned arr_grd
    releaseUnlessReturned arr_pot)

/-! ### 2D Fourier series coefficients -/

/-- `_f2d_coefset_destroy` (pymm_sheval2dfs.h:591-600): the field `offset` is not released -/
def f2dCoefsetDestroy : M Unit := do
  release coefset_ab
  release coefset_cm
  fourier2dDestroy
  reset [coefset_ab, coefset_cm, coefset_offset, f2d_tmp, f2d_1, f2d_2, f2d_12]

/-- `_f2d_coefset_init` (pymm_sheval2dfs.h:604-657) -/
def f2dCoefsetInit : M Bool := onError
  (do
    move arr_ab coefset_ab
    move arr_cm coefset_cm
    acquire coefset_offset
    useAll [coefset_cm, coefset_offset]
    failIf fourier2dInit)
  f2dCoefsetDestroy

/-- `_f2d_coefset_parse` (pymm_sheval2dfs.h:662-757) -/
def f2dCoefsetParse : M Bool := do
  reset [arr_ab, arr_cm]
  orElseReturn (onError
    (do
      check; check; check; check; check; check; check; check
      acquire arr_ab
      acquire arr_cm
      use arr_ab
      check
      use arr_cm
      check
      useAll [arr_ab, arr_cm]
      check)
    (do
      release arr_ab
      release arr_cm))
    f2dCoefsetInit

/-- `sheval2dfs` (pymm_sheval2dfs.h:150-362); `points` is whether there is any point, without one the
evaluation touches no memory.  The result of `_f2d_coefset_parse` is ignored (line 248). -/
def sheval2dfs (mode : Mode) (isInternal : Option Bool) (scale points : Bool) : M Unit := withExit
  (do
    check
    optionalFlag isInternal
    check; check; check
    acquire arr_t1
    acquire arr_t2
    acquire arr_x
    useAll [arr_t1, arr_t2, arr_x]
    check; check; check
    check
    ignoreResult f2dCoefsetParse
    check
    scaleFactors scale
    useAll [arr_t1, arr_t2, arr_x]
    newOutputs mode
    failIf modelTsInit
    useIf points ([coefset_ab, coefset_cm, coefset_offset] ++ f2dFields)
    evalMode mode [arr_t1, arr_t2, arr_x] (model_coef :: modelFields))
  (do
    modelTsDestroy
    f2dCoefsetDestroy
    release arr_t1
    release arr_t2
    release arr_x
    release arr_scale
    releaseUnlessReturned arr_grd
    releaseUnlessReturned arr_pot)

/-! ### All functions -/

/-- A call of a function of the modules `_pymm`, `_pytimeconv`, `_pysunpos`, `_pyqd` (the tables at the
ends of pymm.c, pytimeconv.c, pysunpos.c, pyqd.c), with what of its arguments decides on its course -/
inductive Call where
  | bisect | interp (extrapolate : Option Bool) | convert (same : Bool) | vrotSph2geod | vrotSphCart
  | timeconv | loncossin | relradpow (isInternal : Option Bool) | spharpot
  | sphargrd (isInternal : Option Bool) | sunpos | sunposOriginal | evalMlt | fourier2d | legendre
  | evalSubsol | evalQdlatlon (evalBase hasTruthValue : Bool)
  | sheval (mode : Mode) (isInternal : Option Bool) (scale : Bool)
  | shevaltemp (n : Nat) (mode : Mode) (isInternal : Option Bool) (scale : Bool)
  | sheval2dfs (mode : Mode) (isInternal : Option Bool) (scale points : Bool)

def Call.body : Call → M Unit
  | .bisect => Res.bisect
  | .interp x => Res.interp x
  | .convert x => Res.convert x
  | .vrotSph2geod => Res.vrotSph2geod
  | .vrotSphCart => Res.vrotSphCart
  | .timeconv => Res.timeconv
  | .loncossin => Res.loncossin
  | .relradpow x => Res.relradpow x
  | .spharpot => Res.spharpot
  | .sphargrd x => Res.sphargrd x
  | .sunpos => Res.sunpos
  | .sunposOriginal => Res.sunposOriginal
  | .evalMlt => Res.evalMlt
  | .fourier2d => Res.fourier2d
  | .legendre => Res.legendre
  | .evalSubsol => Res.evalSubsol
  | .evalQdlatlon b h => Res.evalQdlatlon b h
  | .sheval m i s => Res.sheval m i s
  | .shevaltemp n m i s => Res.shevaltemp n m i s
  | .sheval2dfs m i s p => Res.sheval2dfs m i s p

/-- The call: state at its end, or `none` for undefined behaviour.  (The label is the end of every
function: nothing jumps out of it.) -/
def Call.run (c : Call) (e : Env) : Option St :=
  match c.body e St.init with
  | .ok _ s => some s
  | .jump s => some s
  | .fault => none

end Verif.Res
