import Verif.Tests.Basic
import Verif.Model.ArgOpt
/-!
# tests/src/test_argopt.c
-/

namespace Vita.Tests
open ArgOpt

/-- `float`. -/
def f32 : Ty := .flt Spec.binary32

/-- `int32_t`. -/
def i32 : Ty := .int ⟨true, 32⟩

/-- A `float` variable. -/
def flt (x : ℚ) : Val := .flt (.fin false (Spec.rnd Spec.binary32 x))

/-- test_argopt.c:56-71. -/
def optv (rpath : Arr) : List Opt :=
  [⟨some (c "--rpath"), some (c "-r"), some (.str (some rpath)), .str⟩,
   ⟨some (c "--wpath"), some (c "-w"), some (.str none), .str⟩,
   ⟨some (c "--intensity"), some (c "-i"), some (flt 0.1), f32⟩,
   ⟨some (c "--polarity"), some (c "-p"), some (flt 0.2), f32⟩,
   ⟨some (c "--verbose"), some (c "-v"), some (.bool false), .bool⟩,
   ⟨some (c "--audio"), some (c "-a"), some (.bool false), .bool⟩,
   ⟨some (c "--volume"), some (c "-vl"), some (.int 50), i32⟩,
   ⟨some (c "--level"), some (c "-l"), some (.int 1), i32⟩,
   ⟨some (c "--update"), some (c "-ud"), some (.char 110), .char⟩,
   ⟨some (c "--upgrade"), some (c "-ug"), some (.char 110), .char⟩]

/-- test_argopt.c:29-51, without the name of the program. -/
def argv : List Mem :=
  [c "-r=../temp", c "--wpath", c "./docs/dw/data/", c "--intensity=0.7", c "-p", c "0.35", c "--verbose", c "-a", c "true", c "-vl=83", c "--level", c "13",
   c "--update=y", c "-ug", c "y", c "-uo", c "--unkownOption", c "unkownValue"]

/-- The text of a string variable. -/
def isText (v : Option Val) (x : String) : Out Unit :=
  match v with
  | some (.str (some s)) => isZ s x
  | _ => check false

/-- test_argopt.c:8-86. -/
def argMain : Out Unit := do
  let rpath ← Str.create E (c "my/temp/folder/default/initialized")
  let (status, opts) ← parse E argv (optv rpath)
  check (status == -1)
  match opts.map (·.value) with
  | [rpath, wpath, intensity, polarity, _, _, volume, level, update, upgrade] => do
    isText rpath "../temp"
    isText wpath "./docs/dw/data/"
    check (intensity == some (flt 0.7))
    check (polarity == some (flt 0.35))
    check (volume == some (.int 83))
    check (level == some (.int 13))
    check (update == some (.char 121))
    check (upgrade == some (.char 121))
  | _ => check false

example : argMain = .ok () := by decide +kernel

end Vita.Tests
