import Verif.Model.Crystal
import Verif.Model.Text

/-!
`SlipSystem.load` (`crystal.py:365-440`) from the name of the file to the slip systems: finding the
file, the line of colours, and the rows of numbers as `np.loadtxt` reads them.
-/

namespace DefDAP

/-- A number of a row: a whole number of eight bits (`dtype=np.int8`). Simplification: any other
text is an error; numpy reads numbers that are not whole, or too large, through floats, with a
warning that this is deprecated (`crystal.py:423-424`). -/
def cellInt8 (s : Str) : Except Err Int :=
  (parseInt s).bind fun z => if -128 ≤ z ∧ z ≤ 127 then .ok z else .error .valueError

/-- The part of a line that `np.loadtxt` reads: up to the line break or to the comment
(`crystal.py:423-424`). -/
def dataPart (line : Str) : Str := line.takeWhile fun c => decide (c ≠ '\n') && decide (c ≠ '#')

/-- The rows of `np.loadtxt(filepath, delimiter='\t', skiprows=2, dtype=np.int8)`
(`crystal.py:423-424`); empty lines are left out. -/
def textRows (file : List Str) : Except Err (List (List Int)) :=
  (((file.drop 2).map dataPart).filter fun l => !l.isEmpty).mapM fun l =>
    (splitSep '\t' l).mapM cellInt8

/-- `slip_system_file.readline().strip().split(',')` after one `readline` (`crystal.py:414-415`). -/
def textColours (file : List Str) : List Str := splitSep ',' (strip (file[1]?.getD []))

/-- The colours and the rows of a text (`crystal.py:414-424`). -/
def readSlipText (text : Str) : Except Err SlipFile :=
  (textRows (linesOf text)).bind fun rows =>
  .ok ⟨(textColours (linesOf text)).map String.ofList, rows⟩

/-- `f"{package_dir}/slip_systems/{name}{file_ext}"` (`crystal.py:398-400`). -/
def slipPath (packageDir name : Str) : Str :=
  packageDir ++ lit "/slip_systems/" ++ name ++ lit ".txt"

/-- The text of the file (`crystal.py:396-412`): in the directory of the package, else the name is a
path. `fs` gives the text of the files that exist; other errors of the file system are not modelled. -/
def findSlipText (fs : Str → Option Str) (packageDir name : Str) : Except Err Str :=
  match fs (slipPath packageDir name) with
  | some t => .ok t
  | none =>
    match fs name with
    | some t => .ok t
    | none => .error .fileNotFoundError

/-- `SlipSystem.load` (`crystal.py:365-440`), grouped by plane. -/
noncomputable def loadSlipNamed (fs : Str → Option Str) (packageDir : Str) (dflt : String)
    (cs : CrystalName) (ca : Option ℝ) (name : Str) :
    Except Err (List (List SlipSystem) × List String) :=
  (findSlipText fs packageDir name).bind fun text =>
  (readSlipText text).bind fun file =>
  loadSlip dflt cs ca file

/-- A text from its lines, each with its line break (`crystal.py:402, 409`). -/
def joined (lines : List String) : Str := (lines.map lit).flatten

/-- `defdap/slip_systems/cubic_fcc.txt:1-14`. -/
def fccText : Str :=
  joined [
  "# Plane normal then slip direction\n",
  "blue,green,red,white\n",
  "1\t1\t1\t0\t1\t-1\n",
  "1\t1\t1\t-1\t0\t1\n",
  "1\t1\t1\t1\t-1\t0\n",
  "1\t1\t-1\t0\t1\t1\n",
  "1\t1\t-1\t-1\t0\t-1\n",
  "1\t1\t-1\t1\t-1\t0\n",
  "-1\t1\t1\t0\t1\t-1\n",
  "-1\t1\t1\t1\t0\t1\n",
  "-1\t1\t1\t-1\t-1\t0\n",
  "1\t-1\t1\t0\t-1\t-1\n",
  "1\t-1\t1\t-1\t0\t1\n",
  "1\t-1\t1\t1\t1\t0"]

/-- `defdap/slip_systems/cubic_fcc_damask.txt:1-14`. -/
def fccDamaskText : Str :=
  joined [
  "# Plane normal then slip direction\n",
  "blue,green,red,black\n",
  " 1\t 1\t 1\t 0\t 1\t-1\n",
  " 1\t 1\t 1\t-1\t 0\t 1\n",
  " 1\t 1\t 1\t 1\t-1\t 0\n",
  "-1\t-1\t 1\t 0\t-1\t-1\n",
  "-1\t-1\t 1\t 1\t 0\t 1\n",
  "-1\t-1\t 1\t-1\t 1\t 0\n",
  " 1\t-1\t-1\t 0\t-1\t 1\n",
  " 1\t-1\t-1\t-1\t 0\t-1\n",
  " 1\t-1\t-1\t 1\t 1\t 0\n",
  "-1\t 1\t-1\t 0\t 1\t 1\n",
  "-1\t 1\t-1\t 1\t 0\t-1\n",
  "-1\t 1\t-1\t-1\t-1\t 0\n"]

/-- `defdap/slip_systems/cubic_bcc.txt:1-50`. -/
def bccText : Str :=
  joined [
  "# Plane normal then slip direction\n",
  "green,green,green,green,red,red,red,red,blue,blue,blue,blue\n",
  "0\t1\t-1\t1\t1\t1\n",
  "-1\t0\t1\t1\t1\t1\n",
  "1\t-1\t0\t1\t1\t1\n",
  "0\t1\t1\t1\t1\t-1\n",
  "-1\t0\t-1\t1\t1\t-1\n",
  "1\t-1\t0\t1\t1\t-1\n",
  "0\t1\t-1\t-1\t1\t1\n",
  "1\t0\t1\t-1\t1\t1\n",
  "-1\t-1\t0\t-1\t1\t1\n",
  "0\t-1\t-1\t1\t-1\t1\n",
  "-1\t0\t1\t1\t-1\t1\n",
  "1\t1\t0\t1\t-1\t1\n",
  "-2\t1\t1\t1\t1\t1\n",
  "1\t-2\t1\t1\t1\t1\n",
  "1\t1\t-2\t1\t1\t1\n",
  "2\t-1\t1\t-1\t-1\t1\n",
  "-1\t2\t1\t-1\t-1\t1\n",
  "1\t1\t2\t-1\t-1\t1\n",
  "2\t1\t-1\t1\t-1\t1\n",
  "1\t2\t1\t1\t-1\t1\n",
  "-1\t1\t2\t1\t-1\t1\n",
  "2\t1\t1\t-1\t1\t1\n",
  "1\t2\t-1\t-1\t1\t1\n",
  "1\t-1\t2\t-1\t1\t1\n",
  "1\t2\t3\t1\t1\t-1\n",
  "2\t1\t3\t1\t1\t-1\n",
  "3\t2\t1\t1\t1\t-1\n",
  "2\t3\t1\t1\t1\t-1\n",
  "-1\t3\t2\t1\t1\t-1\n",
  "3\t-1\t2\t1\t1\t-1\n",
  "1\t3\t2\t1\t-1\t1\n",
  "2\t3\t1\t1\t-1\t1\n",
  "3\t1\t2\t1\t-1\t1\n",
  "2\t1\t3\t1\t-1\t1\n",
  "-1\t2\t3\t1\t-1\t1\n",
  "3\t2\t-1\t1\t-1\t1\n",
  "3\t1\t2\t-1\t1\t1\n",
  "3\t2\t1\t-1\t1\t1\n",
  "1 \t2 \t3\t-1\t1\t1\n",
  "1\t3\t2\t-1\t1\t1\n",
  "2\t-1\t3\t-1\t1\t1\n",
  "2\t3\t-1\t-1\t1\t1\n",
  "1\t2\t3\t1\t1\t1\n",
  "1\t3\t2\t1\t1\t1\n",
  "3\t1\t2\t1\t1\t1\n",
  "2\t1\t3\t1\t1 \t1\n",
  "2\t3\t1 \t1\t1\t1\n",
  "3\t1\t2\t1\t1\t1"]

/-- `defdap/slip_systems/cubic_bcc_110only.txt:1-14`. -/
def bcc110Text : Str :=
  joined [
  "# Plane normal then slip direction\n",
  "green,green,green,green\n",
  "0\t1\t-1\t1\t1\t1\n",
  "-1\t0\t1\t1\t1\t1\n",
  "1\t-1\t0\t1\t1\t1\n",
  "0\t1\t1\t1\t1\t-1\n",
  "-1\t0\t-1\t1\t1\t-1\n",
  "1\t-1\t0\t1\t1\t-1\n",
  "0\t1\t-1\t-1\t1\t1\n",
  "1\t0\t1\t-1\t1\t1\n",
  "-1\t-1\t0\t-1\t1\t1\n",
  "0\t-1\t-1\t1\t-1\t1\n",
  "-1\t0\t1\t1\t-1\t1\n",
  "1\t1\t0\t1\t-1\t1"]

/-- `defdap/slip_systems/hexagonal_noca.txt:1-14`. -/
def hexNocaText : Str :=
  joined [
  "# Plane normal then slip direction (3 x basal in red), (3 x prism in blue), (6 x py <a> in green)\n",
  "red,blue,blue,blue,green,green,green,green,green,green\n",
  "0\t0\t0\t1\t1\t1\t-2\t0\n",
  "0\t0\t0\t1\t1\t-2\t1\t0\n",
  "0\t0\t0\t1\t-2\t1\t1\t0\n",
  "1\t0\t-1\t0\t1\t-2\t1\t0\n",
  "0\t1\t-1\t0\t-2\t1\t1\t0\n",
  "1\t-1\t0\t0\t1\t1\t-2\t0\n",
  "1\t-1\t0\t1\t1\t1\t-2\t0\n",
  "1\t-1\t0\t-1\t1\t1\t-2\t0\n",
  "1\t0\t-1\t1\t1\t-2\t1\t0\n",
  "1\t0\t-1\t-1\t1\t-2\t1\t0\n",
  "0\t-1\t1\t1\t-2\t1\t1\t0\n",
  "0\t-1\t1\t-1\t-2\t1\t1\t0"]

/-- `defdap/slip_systems/hexagonal_withca.txt:1-26`. -/
def hexWithcaText : Str :=
  joined [
  "# Plane normal then slip direction (3 x basal in red), (3 x prism in blue), (6 x py <a> in green), (12 x py <c+a> in green)\n",
  "red,blue,blue,blue,green,green,green,green,green,green\n",
  "0\t0\t0\t1\t1\t1\t-2\t0\n",
  "0\t0\t0\t1\t1\t-2\t1\t0\n",
  "0\t0\t0\t1\t-2\t1\t1\t0\n",
  "1\t0\t-1\t0\t1\t-2\t1\t0\n",
  "0\t1\t-1\t0\t-2\t1\t1\t0\n",
  "1\t-1\t0\t0\t1\t1\t-2\t0\n",
  "1\t-1\t0\t1\t1\t1\t-2\t0\n",
  "1\t-1\t0\t-1\t1\t1\t-2\t0\n",
  "1\t0\t-1\t1\t1\t-2\t1\t0\n",
  "1\t0\t-1\t-1\t1\t-2\t1\t0\n",
  "0\t-1\t1\t1\t-2\t1\t1\t0\n",
  "0\t-1\t1\t-1\t-2\t1\t1\t0\n",
  "1\t0\t-1\t-1\t1\t1\t-2\t3\n",
  "1\t0\t-1\t-1\t2\t-1\t-1\t3\n",
  "1\t0\t-1\t1\t-1\t-1\t2\t3\n",
  "1\t0\t-1\t1\t-2\t1\t1\t3\n",
  "1\t-1\t0\t1\t-2\t1\t1\t3\n",
  "1\t-1\t0\t1\t-1\t2\t-1\t3\n",
  "1\t-1\t0\t-1\t1\t-2\t1\t3\n",
  "1\t-1\t0\t-1\t2\t-1\t-1\t3\n",
  "0\t-1\t1\t1\t1\t1\t-2\t3\n",
  "0\t-1\t1\t1\t-1\t2\t-1\t3\n",
  "0\t-1\t1\t-1\t-1\t-1\t2\t3\n",
  "0\t-1\t1\t-1\t1\t-2\t1\t3\n"]

/-- The files that come with the package (`crystal.py:400`). -/
def shippedTexts : List (String × Str) := [
  ("cubic_fcc", fccText),
  ("cubic_fcc_damask", fccDamaskText),
  ("cubic_bcc", bccText),
  ("cubic_bcc_110only", bcc110Text),
  ("hexagonal_noca", hexNocaText),
  ("hexagonal_withca", hexWithcaText)]

end DefDAP
