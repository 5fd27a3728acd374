import Mathlib.Data.Real.Basic
import Verif.Model.Basic

/-!
The data an EBSD map calculates when they are first read (`ebsd.py:112-146`, `base.py:89-109`,
`utils.py:139-183, 369-406`), and the calls that calculate or change them. What the single
calculations give is modelled elsewhere (`Quat`, `Boundaries`, `FindGrains`, `EbsdMap`, `Filter`,
`GrainData`); here they are arbitrary functions, and the model says when they are called, on what,
and what is kept. The property `map.proxigram` (`base.py:382-394`) is not modelled: it calls
`calc_proxigram` with an argument it does not have, a `TypeError`. Arrays, boundary sets and lists of grains are values of one type `D`.
-/

namespace DefDAP

/-- The names of the calculated data (`ebsd.py:112-146`, `base.py:89-92`). -/
inductive DerivedKey where
  | orientation | phaseBoundaries | grainBoundaries | grains | kam | gnd | nye | proxigram
  deriving DecidableEq

/-- The calculations, as functions of the data of the map they read. What else they depend on (the
shape, the step size, the list of phases) does not change after loading (`ebsd.py:402-944`,
`base.py:396-439`). -/
structure DerivedCalc (D : Type) where
  /-- `calc_quat_array` (`ebsd.py:571-580`) of the Euler angles. -/
  quats : D → D
  /-- `find_boundaries` (`ebsd.py:664-750`): tolerance, primary phase, orientations, phases; the
  phase boundaries and the grain boundaries. -/
  bounds : ℝ → Nat → D → D → Except Err (D × D)
  /-- `find_grains` (`ebsd.py:853-944`): smallest size, grain boundaries, phases; the image of grain
  numbers and the list of grains. -/
  grains : Int → D → D → Except Err (D × D)
  /-- `calc_kam` (`ebsd.py:402-449`) of the orientations. -/
  kam : D → Except Err D
  /-- `calc_nye` (`ebsd.py:451-569`): primary phase and orientations; density and tensor. -/
  nye : Nat → D → Except Err (D × D)
  /-- `calc_proxigram` (`base.py:396-439`) of the grain boundaries. -/
  prox : D → Except Err D
  /-- What `filter_data` (`ebsd.py:582-660`) assigns for these orientations. -/
  filter : ℝ → D → D
  /-- The turned Euler angles and phases and the multiplied orientations of `rotate_data`
  (`ebsd.py:251-262`). -/
  flip : D → D
  turn : D → D
  /-- `build_neighbour_network` (`ebsd.py:752-796`): list of grains, grain boundaries, image of
  grain numbers. Errors it may raise are left out. -/
  network : D → D → D → D

/-- The state of a map: what was loaded, the number of the primary phase (`ebsd.py:105`), the data
kept in the store (`None` is `none`), `_grains` and `neighbour_network` (`base.py:76-81`). -/
structure DerivedSt (D : Type) where
  euler : D
  phase : D
  primary : Nat
  saved : DerivedKey → Option D
  list : Option D
  network : Option D

/-- A map that was just loaded (`base.py:76-92`, `ebsd.py:92-146`). -/
def DerivedSt.loaded {D : Type} (euler phase : D) : DerivedSt D :=
  ⟨euler, phase, 0, fun _ => none, none, none⟩

/-- `self[key] = data` (`utils.py:185-207`). -/
def DerivedSt.save {D : Type} (st : DerivedSt D) (k : DerivedKey) (v : D) : DerivedSt D :=
  ⟨st.euler, st.phase, st.primary, fun k' => if k' = k then some v else st.saved k', st.list,
    st.network⟩

/-- Reading `data.orientation` (`utils.py:139-183`): the kept ones, or those of the Euler angles,
which are kept. -/
def readOri {D : Type} (c : DerivedCalc D) (st : DerivedSt D) : D × DerivedSt D :=
  match st.saved .orientation with
  | some q => (q, st)
  | none => (c.quats st.euler, st.save .orientation (c.quats st.euler))

/-- A call of the method `find_boundaries` (`ebsd.py:664-750`): nothing is kept but the orientations
it reads. -/
def callBounds {D : Type} (c : DerivedCalc D) (tol : ℝ) (st : DerivedSt D) :
    Except Err (D × D) × DerivedSt D :=
  (c.bounds tol st.primary (readOri c st).1 st.phase, (readOri c st).2)

/-- Keep both boundary sets (`utils.py:398-402`). -/
def saveBounds {D : Type} (r : Except Err (D × D)) (st : DerivedSt D) : DerivedSt D :=
  match r with
  | .error _ => st
  | .ok b => (st.save .phaseBoundaries b.1).save .grainBoundaries b.2

/-- `data.generate` for either kind of boundaries (`utils.py:369-406`). -/
def genBounds {D : Type} (c : DerivedCalc D) (tol : ℝ) (st : DerivedSt D) :
    Except Err (D × D) × DerivedSt D :=
  ((callBounds c tol st).1, saveBounds (callBounds c tol st).1 (callBounds c tol st).2)

/-- Reading `data.grain_boundaries`, with the default tolerance if they are not there
(`utils.py:166-174`). -/
def readBounds {D : Type} (c : DerivedCalc D) (st : DerivedSt D) : Except Err D × DerivedSt D :=
  match st.saved .grainBoundaries with
  | some b => (.ok b, st)
  | none => ((genBounds c 10 st).1.map (·.2), (genBounds c 10 st).2)

/-- Reading `data.phase_boundaries` (`utils.py:166-174`). -/
def readPhaseBounds {D : Type} (c : DerivedCalc D) (st : DerivedSt D) :
    Except Err D × DerivedSt D :=
  match st.saved .phaseBoundaries with
  | some b => (.ok b, st)
  | none => ((genBounds c 10 st).1.map (·.1), (genBounds c 10 st).2)

/-- The part of `find_grains` after the boundaries were read (`ebsd.py:868-944`): if it raises
nothing the list of grains of the map is replaced (line 943). -/
def grainsFrom {D : Type} (c : DerivedCalc D) (m : Int) (b : Except Err D) (st : DerivedSt D) :
    Except Err D × DerivedSt D :=
  match b.bind fun b => c.grains m b st.phase with
  | .error e => (.error e, st)
  | .ok gl => (.ok gl.1, ⟨st.euler, st.phase, st.primary, st.saved, some gl.2, st.network⟩)

/-- A call of the method `find_grains` (`ebsd.py:853-944`). -/
def callGrains {D : Type} (c : DerivedCalc D) (m : Int) (st : DerivedSt D) :
    Except Err D × DerivedSt D :=
  grainsFrom c m (readBounds c st).1 (readBounds c st).2

/-- Keep one datum if it was calculated (`utils.py:387-391`). -/
def saveOne {D : Type} (k : DerivedKey) (r : Except Err D × DerivedSt D) :
    Except Err D × DerivedSt D :=
  match r.1 with
  | .error e => (.error e, r.2)
  | .ok v => (.ok v, r.2.save k v)

/-- `data.generate('grains', min_grain_size=m)` (`utils.py:369-391`). -/
def genGrains {D : Type} (c : DerivedCalc D) (m : Int) (st : DerivedSt D) :
    Except Err D × DerivedSt D := saveOne .grains (callGrains c m st)

/-- `data.generate('KAM')` (`utils.py:369-391`). -/
def genKam {D : Type} (c : DerivedCalc D) (st : DerivedSt D) : Except Err D × DerivedSt D :=
  saveOne .kam (c.kam (readOri c st).1, (readOri c st).2)

/-- `data.generate` for `GND` or `Nye_tensor`: the tensor is not kept (`ebsd.py:141`). -/
def genNye {D : Type} (c : DerivedCalc D) (st : DerivedSt D) :
    Except Err (D × D) × DerivedSt D :=
  match c.nye st.primary (readOri c st).1 with
  | .error e => (.error e, (readOri c st).2)
  | .ok a => (.ok a, (readOri c st).2.save .gnd a.1)

/-- `data.generate('proxigram')` (`utils.py:369-391`). -/
def genProx {D : Type} (c : DerivedCalc D) (st : DerivedSt D) : Except Err D × DerivedSt D :=
  saveOne .proxigram ((readBounds c st).1.bind c.prox, (readBounds c st).2)

/-- What is kept, or the calculation (`utils.py:166-174`). -/
def keptOr {D : Type} (k : DerivedKey) (f : DerivedSt D → Except Err D × DerivedSt D)
    (st : DerivedSt D) : Except Err D × DerivedSt D :=
  match st.saved k with
  | some v => (.ok v, st)
  | none => f st

/-- Reading one of the data from the store (`utils.py:139-183`). -/
def readDerived {D : Type} (c : DerivedCalc D) (k : DerivedKey) (st : DerivedSt D) :
    Except Err D × DerivedSt D :=
  match k with
  | .orientation => (.ok (readOri c st).1, (readOri c st).2)
  | .phaseBoundaries => readPhaseBounds c st
  | .grainBoundaries => readBounds c st
  | .grains => keptOr .grains (genGrains c 10) st
  | .kam => keptOr .kam (genKam c) st
  | .gnd => keptOr .gnd (fun st => ((genNye c st).1.map (·.1), (genNye c st).2)) st
  | .nye => ((genNye c st).1.map (·.2), (genNye c st).2)
  | .proxigram => keptOr .proxigram (genProx c) st

/-- `map.grains` (`base.py:105-109`), also what `len(map)` and `map[i]` read (`base.py:98-103`):
the image of grains is read first. -/
def readGrainList {D : Type} (c : DerivedCalc D) (st : DerivedSt D) :
    Except Err (Option D) × DerivedSt D :=
  match (readDerived c .grains st).1 with
  | .error e => (.error e, (readDerived c .grains st).2)
  | .ok _ => (.ok (readDerived c .grains st).2.list, (readDerived c .grains st).2)

/-- `filter_data` (`ebsd.py:582-662`): the filtered orientations are kept. -/
def filterMap {D : Type} (c : DerivedCalc D) (tol : ℝ) (st : DerivedSt D) : DerivedSt D :=
  (readOri c st).2.save .orientation (c.filter tol (readOri c st).1)

/-- Turn the loaded data (`ebsd.py:251-254`). -/
def flipLoaded {D : Type} (c : DerivedCalc D) (st : DerivedSt D) : DerivedSt D :=
  ⟨c.flip st.euler, c.flip st.phase, st.primary, st.saved, st.list, st.network⟩

/-- `rotate_data` (`ebsd.py:245-264`) of a map that has all data it turns; C64 treats others. -/
def rotateMap {D : Type} (c : DerivedCalc D) (st : DerivedSt D) : DerivedSt D :=
  (readOri c (flipLoaded c st)).2.save .orientation (c.turn (readOri c (flipLoaded c st)).1)

/-- Keep the network (`ebsd.py:796`). -/
def setNet {D : Type} (st : DerivedSt D) (n : D) : DerivedSt D :=
  ⟨st.euler, st.phase, st.primary, st.saved, st.list, some n⟩

/-- `build_neighbour_network` (`ebsd.py:752-796`): it reads the grains, the grain boundaries and the
image of grains. -/
def buildNet {D : Type} (c : DerivedCalc D) (st : DerivedSt D) : DerivedSt D :=
  match (readGrainList c st).1, (readBounds c (readGrainList c st).2).1,
      (readDerived c .grains (readBounds c (readGrainList c st).2).2).1 with
  | .ok (some l), .ok b, .ok g =>
    setNet (readDerived c .grains (readBounds c (readGrainList c st).2).2).2 (c.network l b g)
  | .error _, _, _ => (readGrainList c st).2
  | .ok none, _, _ => (readGrainList c st).2
  | .ok (some _), .error _, _ => (readBounds c (readGrainList c st).2).2
  | .ok (some _), .ok _, .error _ =>
    (readDerived c .grains (readBounds c (readGrainList c st).2).2).2

/-- What a user does with a map (`ebsd.py:112-147, 245-264, 582-944`, `utils.py:139-183, 369-406`,
`base.py:98-109`). -/
inductive DerivedOp (D : Type) where
  | read (k : DerivedKey)
  | readList
  | genBounds (tol : ℝ)
  | genGrains (m : Int)
  | genKam
  | genNye
  | genProx
  | callBounds (tol : ℝ)
  | callGrains (m : Int)
  | filter (tol : ℝ)
  | rotate
  | setPrimary (n : Nat)
  | network

/-- One step (`ebsd.py:112-147, 245-264, 582-944`, `utils.py:139-183, 369-406`, `base.py:98-109`).
-/
def derivedStep {D : Type} (c : DerivedCalc D) (st : DerivedSt D) : DerivedOp D → DerivedSt D
  | .read k => (readDerived c k st).2
  | .readList => (readGrainList c st).2
  | .genBounds tol => (genBounds c tol st).2
  | .genGrains m => (genGrains c m st).2
  | .genKam => (genKam c st).2
  | .genNye => (genNye c st).2
  | .genProx => (genProx c st).2
  | .callBounds tol => (callBounds c tol st).2
  | .callGrains m => (callGrains c m st).2
  | .filter tol => filterMap c tol st
  | .rotate => rotateMap c st
  | .setPrimary n => ⟨st.euler, st.phase, n, st.saved, st.list, st.network⟩
  | .network => buildNet c st

/-- A history (`ebsd.py:112-147, 245-264, 582-944`, `utils.py:139-183, 369-406`, `base.py:98-109`).
-/
def derivedRun {D : Type} (c : DerivedCalc D) (st : DerivedSt D) (ops : List (DerivedOp D)) :
    DerivedSt D := ops.foldl (derivedStep c) st

end DefDAP
