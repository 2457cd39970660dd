import Verif.Vec.Basic

/-!
# Ellipsoids of coordinate systems

Model of `Ellipsoid`, `parse_ellipsoid`, `GeographicalCRS.__init__` and `crs_from_wkt` (karta/crs.py 26-100, 216-228, 300-349).  Strings are lists
of characters and a PROJ string is its list of words, `projstring.split()`; a word without blanks is in the string exactly if it is in one of
the words.  Numbers are exact; `float` is a parameter.  Outside the repository: PROJ, which is given the string, and OSR, which exports it.
-/

namespace Karta.Ellps
open Karta

abbrev Str := List Char

/-- A row of `ELLIPSOID_DATA`. -/
structure Row where
  a : ℚ
  b : Option ℚ
  rf : Option ℚ
  name : String

/-- `DATUM_ELLIPSOIDS` (crs.py 26-30). -/
def datums : List (Str × Str) := [
  ("WGS84".toList, "WGS84".toList), ("GGRS87".toList, "GRS80".toList), ("NAD83".toList, "GRS80".toList), ("NAD27".toList, "clrk66".toList),
  ("potsdam".toList, "bessel".toList), ("carthage".toList, "clark80".toList),
  ("hermannskogel".toList, "bessel".toList), ("ire65".toList, "mod_airy".toList), ("nzgd49".toList, "intl".toList), ("OSGB36".toList, "airy".toList)]

/-- `ELLIPSOID_DATA` (crs.py 32-77). -/
def rows : List (Str × Row) := [
  ("MERIT".toList, ⟨6378137, none, some (298257/1000), "MERIT 1983"⟩),
  ("SGS85".toList, ⟨6378136, none, some (298257/1000), "Soviet Geodetic System 85"⟩),
  ("GRS80".toList, ⟨6378137, none, some (298257222101/1000000000), "GRS 1980(IUGG, 1980)"⟩),
  ("IAU76".toList, ⟨6378140, none, some (298257/1000), "IAU 1976"⟩),
  ("airy".toList, ⟨1594390849/250, some (635625691/100), none, "Airy 1830"⟩),
  ("APL4.9".toList, ⟨6378137, none, some (1193/4), "Appl. Physics. 1965"⟩),
  ("NWL9D".toList, ⟨6378145, none, some (1193/4), "Naval Weapons Lab., 1965"⟩),
  ("mod_airy".toList, ⟨6377340189/1000, some (3178017223/500), none, "Modified Airy"⟩),
  ("andrae".toList, ⟨637710443/100, none, some (300), "Andrae 1876 (Den., Iclnd.)"⟩),
  ("aust_SA".toList, ⟨6378160, none, some (1193/4), "Australian Natl & S. Amer. 1969"⟩),
  ("GRS67".toList, ⟨6378160, none, some (298247167427/1000000000), "GRS 67(IUGG 1967)"⟩),
  ("bessel".toList, ⟨1275479431/200, none, some (46742627/156250), "Bessel 1841"⟩),
  ("bess_nam".toList, ⟨1275496773/200, none, some (46742627/156250), "Bessel 1841 (Namibia)"⟩),
  ("clrk66".toList, ⟨31891032/5, some (31782919/5), none, "Clarke 1866"⟩),
  ("clrk80".toList, ⟨1275649829/200, none, some (2934663/10000), "Clarke 1880 mod."⟩),
  ("clrk80ign".toList, ⟨31891246/5, none, some (2934660212936269/10000000000000), "Clarke 1880 (IGN)."⟩),
  ("CPM".toList, ⟨63757387/10, none, some (33429/100), "Comm. des Poids et Mesures 1799"⟩),
  ("delmbr".toList, ⟨6376428, none, some (623/2), "Delambre 1810 (Belgium)"⟩),
  ("engelis".toList, ⟨127562721/20, none, some (1491283/5000), "Engelis 1985"⟩),
  ("evrst30".toList, ⟨1275455269/200, none, some (3008017/10000), "Everest 1830"⟩),
  ("evrst48".toList, ⟨6377304063/1000, none, some (3008017/10000), "Everest 1948"⟩),
  ("evrst56".toList, ⟨6377301243/1000, none, some (3008017/10000), "Everest 1956"⟩),
  ("evrst69".toList, ⟨797161958/125, none, some (3008017/10000), "Everest 1969"⟩),
  ("evrstSS".toList, ⟨1594324639/250, none, some (3008017/10000), "Everest (Sabah & Sarawak)"⟩),
  ("fschr60".toList, ⟨6378166, none, some (2983/10), "Fischer (Mercury Datum) 1960"⟩),
  ("fschr60m".toList, ⟨6378155, none, some (2983/10), "Modified Fischer 1960"⟩),
  ("fschr68".toList, ⟨6378150, none, some (2983/10), "Fischer 1968"⟩),
  ("helmert".toList, ⟨6378200, none, some (2983/10), "Helmert 1906"⟩),
  ("hough".toList, ⟨6378270, none, some (297), "Hough"⟩),
  ("intl".toList, ⟨6378388, none, some (297), "International 1909 (Hayford)"⟩),
  ("krass".toList, ⟨6378245, none, some (2983/10), "Krassovsky, 1942"⟩),
  ("kaula".toList, ⟨6378163, none, some (7456/25), "Kaula 1961"⟩),
  ("lerch".toList, ⟨6378139, none, some (298257/1000), "Lerch 1979"⟩),
  ("mprts".toList, ⟨6397300, none, some (191), "Maupertius 1738"⟩),
  ("new_intl".toList, ⟨12756315/2, some (31783861/5), none, "New International 1967"⟩),
  ("plessis".toList, ⟨6376523, some (6355863), none, "Plessis 1817 (France)"⟩),
  ("SEasia".toList, ⟨6378155, some (12713546641/2000), none, "Southeast Asia"⟩),
  ("walbeck".toList, ⟨6376896, some (63558348467/10000), none, "Walbeck"⟩),
  ("WGS60".toList, ⟨6378165, none, some (2983/10), "WGS 60"⟩),
  ("WGS66".toList, ⟨6378145, none, some (1193/4), "WGS 66"⟩),
  ("WGS72".toList, ⟨6378135, none, some (14913/50), "WGS 72"⟩),
  ("WGS84".toList, ⟨6378137, none, some (298257223563/1000000000), "WGS 84"⟩),
  ("sphere".toList, ⟨6370997, some (6370997), none, "Normal Sphere (r=6370997)"⟩)]

/-- An `Ellipsoid`; `b` and `f` may be `None`. -/
structure Ell where
  name : String
  a : ℚ
  b : Option ℚ
  f : Option ℚ
  deriving DecidableEq

/-- `Ellipsoid.__init__` (crs.py 80-100) as called by `parse_ellipsoid`, without `f`. -/
def Ell.mk' (name : String) (a b rf : Option ℚ) : Except Err Ell :=
  match a with
  | none => .error .valueError
  | some a =>
    match b with
    | some b => if a = 0 then .error .zeroDivision else .ok ⟨name, a, some b, some ((a - b) / a)⟩
    | none =>
      match rf with
      | some rf => if rf = 0 then .error .zeroDivision else .ok ⟨name, a, some (a - a * (1 / rf)), some (1 / rf)⟩
      | none => .ok ⟨name, a, none, none⟩

/-- `needle in word`. -/
def hasInfix (needle word : Str) : Bool := word.tails.any fun t => needle.isPrefixOf t

/-- `needle in projstring`. -/
def within (needle : Str) (words : List Str) : Bool := words.any (hasInfix needle)

/-- `k, v = kv.split("=")`: `ValueError` unless there is exactly one. -/
def splitEq (kv : Str) : Except Err (Str × Str) :=
  if kv.count '=' = 1 then .ok (kv.takeWhile (· != '='), (kv.dropWhile (· != '=')).tail) else .error .valueError

/-- `ela, elb, elrf, ename = ELLIPSOID_DATA[v]`, then `Ellipsoid(…)` (crs.py 306-307, 314-315, 331). -/
def fromTable (v : Str) : Except Err Ell :=
  match rows.lookup v with
  | none => .error .keyError
  | some r => Ell.mk' r.name (some r.a) r.b r.rf

/-- `DATUM_ELLIPSOIDS[v]`. -/
def datumOf (v : Str) : Except Err Str :=
  match datums.lookup v with
  | none => .error .keyError
  | some e => .ok e

/-- The variables `ela`, `elb`, `elrf`. -/
structure Axes where
  a : Option ℚ
  b : Option ℚ
  rf : Option ℚ

/-- The truth value of a number or `None`. -/
def truthy (x : Option ℚ) : Bool := decide (x ≠ none ∧ x ≠ some 0)

/-- One word in the loop over the axes (crs.py 319-327). -/
def axesStep (float : Str → Except Err ℚ) (kv : Str) (s : Axes) : Except Err Axes :=
  if "+a".toList.isPrefixOf kv then
    match splitEq kv with
    | .error e => .error e
    | .ok (_, v) => (float v).map fun x => { s with a := some x }
  else if "+b".toList.isPrefixOf kv then
    match splitEq kv with
    | .error e => .error e
    | .ok (_, v) => (float v).map fun x => { s with b := some x }
  else if "+f".toList.isPrefixOf kv then
    match splitEq kv with
    | .error e => .error e
    | .ok (_, v) =>
      match float v with
      | .error e => .error e
      | .ok x => if x = 0 then .error .zeroDivision else .ok { s with rf := some (1 / x) }
  else .ok s

/-- The loop over the axes (crs.py 318-329). -/
def axesLoop (float : Str → Except Err ℚ) : List Str → Axes → Except Err Axes
  | [], s => .ok s
  | kv :: rest, s =>
    match axesStep float kv s with
    | .error e => .error e
    | .ok s' => if truthy s'.a && (truthy s'.b || truthy s'.rf) then .ok s' else axesLoop float rest s'

/-- `parse_ellipsoid` (crs.py 300-331).  `CRSError` is `Err.other`.  If the word is in the string without starting a word, all variables are
still `None`. -/
def parseEllipsoid (float : Str → Except Err ℚ) (words : List Str) : Except Err Ell :=
  if within "+ellps".toList words then
    match words.find? fun kv => "+ellps".toList.isPrefixOf kv with
    | none => Ell.mk' "None" none none none
    | some kv =>
      match splitEq kv with
      | .error e => .error e
      | .ok (_, v) => fromTable v
  else if within "+datum".toList words then
    match words.find? fun kv => "+datum".toList.isPrefixOf kv with
    | none => Ell.mk' "None" none none none
    | some kv =>
      match splitEq kv with
      | .error e => .error e
      | .ok (_, v) =>
        match datumOf v with
        | .error e => .error e
        | .ok e => fromTable e
  else if within "+a".toList words && (within "+b".toList words || within "+f".toList words) then
    match axesLoop float words ⟨none, none, none⟩ with
    | .error e => .error e
    | .ok s => Ell.mk' "Unknown" s.a s.b s.rf
  else .error .other

/-- A `GeographicalCRS`: its PROJ string as words, its ellipsoid and its name. -/
structure Geographical where
  proj4 : List Str
  ellipsoid : Ell
  name : Str

/-- `GeographicalCRS(spheroid, name, datum)` (crs.py 216-228). -/
def geographical (float : Str → Except Err ℚ) (spheroid : List Str) (name : Str) (datum : List Str := ["+datum=WGS84".toList]) :
    Except Err Geographical :=
  match parseEllipsoid float spheroid with
  | .error e => .error e
  | .ok e => .ok ⟨"+proj=lonlat".toList :: spheroid ++ datum, e, name⟩

/-- `crs_from_wkt` for a geographical system (crs.py 337-347), given the words of the exported PROJ string. -/
def fromWkt (float : Str → Except Err ℚ) : List Str → Except Err Geographical
  | [] => .error .other
  | arg :: rest =>
    if hasInfix "+ellps".toList arg then geographical float [arg] "unnamed".toList
    else if hasInfix "+datum".toList arg then
      match splitEq arg with
      | .error e => .error e
      | .ok (_, v) =>
        match datumOf v with
        | .error e => .error e
        | .ok e => geographical float ["+ellps=".toList ++ e] v
    else fromWkt float rest

end Karta.Ellps
