/-
Model of the coordinate conversions and vector rotations.
Source: eoxmagmod/eoxmagmod/include/geo_conversion.h, include/math_aux.h, pymm_cconv.h,
pymm_coord.h, pymm_vrot_sph2geod.h, pymm_vrot_sph2cart.h, pymm_vrot_cart2sph.h, util.py,
dipole_coords.py, dipole.py, magnetic_time.py

Doubles are the elements of a field `K`, the functions of libm are parameters (`Libm`).
The functions work on one position or one vector; the recursion over the arrays is not
modelled here.  A division by zero, the root of a negative number and the arc sine
outside of [-1, 1] give NaN in the code and are excluded by the hypotheses of the theorems.
-/
import Mathlib.Algebra.Field.Defs

namespace Verif.Geo

/-- Functions and constants of libm used by the conversions. -/
structure Libm (K : Type) where
  pi : K
  sin : K → K
  cos : K → K
  asin : K → K
  sqrt : K → K
  fabs : K → K
  atan2 : K → K → K
  pow : K → K → K
  copysign : K → K → K

/-- Three numbers: a position or a vector. -/
structure V3 (K : Type) where
  x : K
  y : K
  z : K
deriving DecidableEq, Repr

variable {K : Type} [Field K] (L : Libm K)

/-- `DG2RAD`, geo_conversion.h line 35. -/
def dg2rad : K := L.pi / 180

/-- `RAD2DG`, geo_conversion.h line 36 (`M_1_PI` is 1/pi). -/
def rad2dg : K := 180 * (1 / L.pi)

/-- `WGS84_A`, geo_conversion.h line 38. -/
def wgs84A : K := 6378137 / 1000

/-- `WGS84_B`, geo_conversion.h line 40. -/
def wgs84B : K := 63567523142 / 10000000

/-- `WGS84_EPS2`, geo_conversion.h line 43. -/
def wgs84Eps2 : K := 1 - (wgs84B * wgs84B) / (wgs84A * wgs84A)

/-- `norm3d`, math_aux.h lines 40-43. -/
def norm3d (x y z : K) : K := L.sqrt (x * x + y * y + z * z)

/-- `norm2d`, math_aux.h lines 50-53. -/
def norm2d (x y : K) : K := L.sqrt (x * x + y * y)

/-- `rot2d`, math_aux.h lines 104-108. -/
def rot2d (x y sn cs : K) : K × K := (x * cs - y * sn, x * sn + y * cs)

/-- `_geodetic2geocentric`, geo_conversion.h lines 56-73: radius in the equatorial plane
and z. -/
def geod2geoc (lat elv a e2 : K) : K × K :=
  let sinLat := L.sin lat
  let cosLat := L.cos lat
  let rc := a / L.sqrt (1 - e2 * sinLat * sinLat)
  ((rc + elv) * cosLat, (rc * (1 - e2) + elv) * sinLat)

/-- The factor `kp` of `_geocentric2geodetic`, geo_conversion.h lines 90-107 (Ferrari's
solution). -/
def ferrari (p z a e2 : K) : K :=
  let pa := p / a
  let za := z / a
  let pa2 := pa * pa
  let za2 := za * za
  let ee4 := e2 * e2
  let rkp0 := 1 - e2
  let zt := rkp0 * za2
  let rh := (pa2 + zt - ee4) / 6
  let ss := 1 / 4 * zt * ee4 * pa2
  let rh3 := rh * rh * rh
  let tmp := rh3 + ss + L.sqrt (ss * (ss + 2 * rh3))
  let tt := L.copysign (L.pow (L.fabs tmp) (1 / 3)) tmp
  let uu := rh + tt + rh * rh / tt
  let vv := L.sqrt (uu * uu + ee4 * zt)
  let ww := 1 / 2 * e2 * (uu + vv - zt) / vv
  1 + e2 * (L.sqrt (uu + vv + ww * ww) + ww) / (uu + vv)

/-- `_geocentric2geodetic`, geo_conversion.h lines 85-112: latitude in radians and
elevation. -/
def geoc2geod (p z a e2 : K) : K × K :=
  let kp := ferrari L p z a e2
  let zkp := z * kp
  (L.atan2 zkp p, norm2d L p zkp * (1 / kp - (1 - e2)) / e2)

/-- `geodetic2geocentric_cart`, geo_conversion.h lines 129-142. -/
def geodetic2cart (lat lon elv a e2 : K) : V3 K :=
  let latRad := dg2rad L * lat
  let lonRad := dg2rad L * lon
  let r := geod2geoc L latRad elv a e2
  ⟨r.1 * L.cos lonRad, r.1 * L.sin lonRad, r.2⟩

/-- `geodetic2geocentric_sph`, geo_conversion.h lines 161-175: latitude and longitude in
radians, radius. -/
def geodetic2sph (lat lon elv a e2 : K) : V3 K :=
  let latRad := dg2rad L * lat
  let lonRad := dg2rad L * lon
  let r := geod2geoc L latRad elv a e2
  ⟨L.atan2 r.2 r.1, lonRad, norm2d L r.1 r.2⟩

/-- `sph2cart`, geo_conversion.h lines 228-243. -/
def sph2cart (r th ph : K) : V3 K :=
  let ra := r * L.cos th
  ⟨ra * L.cos ph, ra * L.sin ph, r * L.sin th⟩

/-- `cart2sph`, geo_conversion.h lines 253-260: latitude and longitude in radians,
radius. -/
def cart2sph (x y z : K) : V3 K :=
  let r := norm3d L x y z
  ⟨L.asin (z / r), L.atan2 y x, r⟩

/-- `geocentric_cart2geodetic`, geo_conversion.h lines 274-285. -/
def cart2geodetic (x y z a e2 : K) : V3 K :=
  let g := geoc2geod L (norm2d L x y) z a e2
  ⟨rad2dg L * g.1, rad2dg L * L.atan2 y x, g.2⟩

/-- `geocentric_sph2geodetic`, geo_conversion.h lines 299-310. -/
def sph2geodetic (r th ph a e2 : K) : V3 K :=
  let g := geoc2geod L (r * L.cos th) (r * L.sin th) a e2
  ⟨rad2dg L * g.1, rad2dg L * ph, g.2⟩

/-- `conv_WGS84_to_cartECEF`, pymm_cconv.h lines 56-60. -/
def convGeodCart (v : V3 K) : V3 K := geodetic2cart L v.x v.y v.z wgs84A wgs84Eps2

/-- `conv_WGS84_to_sphECEF`, pymm_cconv.h lines 63-69. -/
def convGeodSph (v : V3 K) : V3 K :=
  let s := geodetic2sph L v.x v.y v.z wgs84A wgs84Eps2
  ⟨s.x * rad2dg L, s.y * rad2dg L, s.z⟩

/-- `conv_cartECEF_to_sphECEF`, pymm_cconv.h lines 72-78. -/
def convCartSph (v : V3 K) : V3 K :=
  let s := cart2sph L v.x v.y v.z
  ⟨s.x * rad2dg L, s.y * rad2dg L, s.z⟩

/-- `conv_cartECEF_to_WGS84`, pymm_cconv.h lines 81-85. -/
def convCartGeod (v : V3 K) : V3 K := cart2geodetic L v.x v.y v.z wgs84A wgs84Eps2

/-- `conv_sphECEF_to_cartECEF`, pymm_cconv.h lines 89-93. -/
def convSphCart (v : V3 K) : V3 K := sph2cart L v.z (dg2rad L * v.x) (dg2rad L * v.y)

/-- `conv_sphECEF_to_WGS84`, pymm_cconv.h lines 96-100. -/
def convSphGeod (v : V3 K) : V3 K :=
  sph2geodetic L v.z (dg2rad L * v.x) (dg2rad L * v.y) wgs84A wgs84Eps2

/-- `COORD_TYPE`, pymm_coord.h lines 33-38. -/
inductive CT where
  | geodetic
  | spherical
  | cartesian
deriving DecidableEq, Repr

/-- `_check_coord_type`, pymm_coord.h lines 43-57; `none` is `ValueError`. -/
def checkCT (ct : Int) : Option CT :=
  if ct = 0 then some .geodetic
  else if ct = 1 then some .spherical
  else if ct = 2 then some .cartesian
  else none

/-- `_get_fconv`, pymm_cconv.h lines 105-114. -/
def getFconv : CT → CT → V3 K → V3 K
  | .geodetic, .geodetic => id
  | .geodetic, .spherical => convGeodSph L
  | .geodetic, .cartesian => convGeodCart L
  | .spherical, .geodetic => convSphGeod L
  | .spherical, .spherical => id
  | .spherical, .cartesian => convSphCart L
  | .cartesian, .geodetic => convCartGeod L
  | .cartesian, .spherical => convCartSph L
  | .cartesian, .cartesian => id

/-- `convert` for one position, pymm_cconv.h lines 148-205; `none` is `ValueError`. -/
def convert (v : V3 K) (ctIn ctOut : Int) : Option (V3 K) := do
  let i ← checkCT ctIn
  let o ← checkCT ctOut
  if i = o then return v                                          -- lines 185-187
  return getFconv L i o v

/-! ### Vector rotations -/

/-- `_vrot_sph2geod`, pymm_vrot_sph2geod.h lines 41-69; `dlat` in degrees. -/
def vrotSph2geod (v : V3 K) (dlat : K) : V3 K :=
  let d := -dg2rad L * dlat
  let r := rot2d v.z v.x (L.sin d) (L.cos d)
  ⟨r.2, v.y, r.1⟩

/-- `_vrot_sph2cart`, pymm_vrot_sph2cart.h lines 42-75. -/
def vrotSph2cart (v : V3 K) (lat lon : K) : V3 K :=
  let la := dg2rad L * lat
  let lo := dg2rad L * lon
  let r := rot2d v.z v.x (L.sin la) (L.cos la)
  let q := rot2d r.1 v.y (L.sin lo) (L.cos lo)
  ⟨q.1, q.2, r.2⟩

/-- `_vrot_cart2sph`, pymm_vrot_cart2sph.h lines 42-75. -/
def vrotCart2sph (v : V3 K) (lat lon : K) : V3 K :=
  let la := -dg2rad L * lat
  let lo := -dg2rad L * lon
  let q := rot2d v.x v.y (L.sin lo) (L.cos lo)
  let r := rot2d q.1 v.z (L.sin la) (L.cos la)
  ⟨r.2, q.2, r.1⟩

/-- `vrotate` for one vector, util.py lines 45-81.  The coordinates are `none` for `None`;
the result is `none` for an exception (`TypeError` of the subscript of `None`,
`ValueError` for unsupported types).  The types are arbitrary integers. -/
def vrotate (arr : V3 K) (coordIn coordOut : Option (V3 K)) (ctIn ctOut : Int) : Option (V3 K) :=
  if ctIn = ctOut then some arr
  else if ctIn = 0 then
    if ctOut = 0 then some arr
    else if ctOut = 1 then do
      let o ← coordOut
      let i ← coordIn
      return vrotSph2geod L arr (o.x - i.x)
    else if ctOut = 2 then do
      let i ← coordIn
      return vrotSph2cart L arr i.x i.y
    else none
  else if ctIn = 1 then
    if ctOut = 0 then do
      let o ← coordOut
      let i ← coordIn
      return vrotSph2geod L arr (o.x - i.x)
    else if ctOut = 2 then do
      let i ← coordIn
      return vrotSph2cart L arr i.x i.y
    else none
  else if ctIn = 2 then
    if ctOut = 0 ∨ ctOut = 1 then do
      let o ← coordOut
      return vrotCart2sph L arr o.x o.y
    else none
  else none

/-- `vnorm`, util.py lines 84-89, for a vector of three items. -/
def vnorm (v : V3 K) : K := L.sqrt (v.x * v.x + v.y * v.y + v.z * v.z)

/-- `vincdecnorm`, util.py lines 92-104: inclination, declination, norm. -/
def vincdecnorm (v : V3 K) : Option (V3 K) := do
  let t ← convert L v 2 1
  return ⟨-t.x, t.y, t.z⟩

/-! ### Dipole coordinates -/

/-- Three rows. -/
structure M3 (K : Type) where
  r0 : V3 K
  r1 : V3 K
  r2 : V3 K

/-- `get_dipole_rotation_matrix`, dipole_coords.py lines 45-54. -/
def dipoleMatrix (lat lon : K) : M3 K :=
  let sinLat := L.sin (dg2rad L * lat)
  let cosLat := L.cos (dg2rad L * lat)
  let sinLon := L.sin (dg2rad L * lon)
  let cosLon := L.cos (dg2rad L * lon)
  ⟨⟨sinLat * cosLon, -sinLon, cosLat * cosLon⟩,
   ⟨sinLat * sinLon, cosLon, cosLat * sinLon⟩,
   ⟨-cosLat, 0, sinLat⟩⟩

/-- `numpy.dot(v, m)` for a vector of three items. -/
def dot (v : V3 K) (m : M3 K) : V3 K :=
  ⟨v.x * m.r0.x + v.y * m.r1.x + v.z * m.r2.x,
   v.x * m.r0.y + v.y * m.r1.y + v.z * m.r2.y,
   v.x * m.r0.z + v.y * m.r1.z + v.z * m.r2.z⟩

/-- `transpose()`. -/
def M3.transpose (m : M3 K) : M3 K :=
  ⟨⟨m.r0.x, m.r1.x, m.r2.x⟩, ⟨m.r0.y, m.r1.y, m.r2.y⟩, ⟨m.r0.z, m.r1.z, m.r2.z⟩⟩

/-- `convert_to_dipole`, dipole_coords.py lines 57-71. -/
def convertToDipole (v : V3 K) (latNgp lonNgp : K) (ctIn : Int) : Option (V3 K) := do
  let m := dipoleMatrix L latNgp lonNgp
  let c ← convert L v ctIn 2
  convert L (dot c m) 2 1

/-- `vrot_from_dipole`, dipole_coords.py lines 74-87; the position of the output is `none`
for `None` (`TypeError`). -/
def vrotFromDipole (v : V3 K) (latNgp lonNgp latDipole lonDipole : K) (out : Option (K × K))
    (ctOut : Int) : Option (V3 K) :=
  let m := (dipoleMatrix L latNgp lonNgp).transpose
  let w := dot (vrotSph2cart L v latDipole lonDipole) m
  if ctOut = 2 then some w
  else do
    let o ← out
    return vrotCart2sph L w o.1 o.2

/-- `rotate_vectors_from_dipole`, dipole.py lines 92-110. -/
def rotateVectorsFromDipole (v : V3 K) (latNgp lonNgp : K) (coordsDipole coordIn : V3 K)
    (ctIn ctOut : Int) : Option (V3 K) :=
  if ctOut = 2 then
    vrotFromDipole L v latNgp lonNgp coordsDipole.x coordsDipole.y none ctOut
  else do
    let o ← convert L coordIn ctIn ctOut
    vrotFromDipole L v latNgp lonNgp coordsDipole.x coordsDipole.y (some (o.x, o.y)) ctOut

/-- `_mjd2000_to_magnetic_universal_time`, magnetic_time.py lines 65-75. -/
def magneticUniversalTime (latNgp lonNgp latSol lonSol : K) : K :=
  let latrSol := dg2rad L * latSol
  let latrNgp := dg2rad L * latNgp
  let difLonr := dg2rad L * (lonSol - lonNgp)
  let y := L.cos latrSol
  let x := L.sin latrNgp * y * L.cos difLonr - L.cos latrNgp * L.sin latrSol
  12 / L.pi * (L.pi - L.atan2 (y * L.sin difLonr) x)

/-- `mjd2000_to_magnetic_universal_time`, magnetic_time.py lines 39-62; `sunpos` is the
declination and the hour angle of the Sun at the zero longitude, `lat_sol`, `lon_sol` are
`none` for `None`. -/
def mutTime (sunpos : K → K × K) (mjd latNgp lonNgp : K) (latSol lonSol : Option K) : K :=
  match latSol, lonSol with
  | some la, some lo => magneticUniversalTime L latNgp lonNgp la lo
  | _, _ =>
    let s := sunpos mjd
    magneticUniversalTime L latNgp lonNgp s.1 (-s.2)

end Verif.Geo
