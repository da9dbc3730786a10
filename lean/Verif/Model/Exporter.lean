import Verif.Model.Decode

/-!
# The command psdexporter

Model of /repo/psdexporter/main.go: it decodes a file and writes the pictures of its layers to PNG files in the current directory.
The files are a map from names to contents.  Not modelled: what is printed; that writing to a file may fail after it was created (it is a way of `png`
to fail); `os.Open` and `os.Args` (the file is given as a reader).
-/

namespace Psd

/-- Files by their names. -/
abbrev Files := List Char → Option (List UInt8)

/-- What the program gets from outside: whether `os.Create` succeeds for a name, and the bytes that `png.Encode` writes for a picture, with its outcome
(it reads the picture and may fail or panic). -/
structure Host where
  create : List Char → Bool
  png : Picker → List UInt8 × Res Unit

/-- `fmt.Sprintf("%03d", i)`. -/
def pad3 (i : Nat) : List Char := List.replicate (3 - (Nat.toDigits 10 i).length) '0' ++ Nat.toDigits 10 i

/-- psdexporter/main.go:25-30: creating a file and encoding the picture into it.  `os.Create` truncates a file that exists; a nil picture makes `png.Encode` panic. -/
def writePng (h : Host) (name : List Char) (p : Option Picker) (fs : Files) : Files × Res Unit :=
  if h.create name = false then (fs, .err (.bad "create"))
  else match p with
    | none => (fun n => if n = name then some [] else fs n, .panic .nilDeref)
    | some p => (fun n => if n = name then some (h.png p).1 else fs n, (h.png p).2)

mutual

/-- psdexporter/main.go:11-31 `processLayer`: first the layers in the layer, then the layer. -/
def exportLayer (h : Host) (name : List Char) : LTree LayerRec → Files → Files × Res Unit
  | .node l kids, fs =>
    match exportLayers h (name ++ ['_']) 0 kids fs with
    | (fs, .ok ()) => if l.hasImage = false then (fs, .ok ()) else writePng h (name ++ ['.', 'p', 'n', 'g']) l.picker fs
    | (fs, r) => (fs, r)

/-- psdexporter/main.go:13-19 and 48-52: the loop over layers from number `i`; the first error ends it. -/
def exportLayers (h : Host) (pre : List Char) : (i : Nat) → List (LTree LayerRec) → Files → Files × Res Unit
  | _, [], fs => (fs, .ok ())
  | i, k :: ks, fs =>
    match exportLayer h (pre ++ pad3 i) k fs with
    | (fs, .ok ()) => exportLayers h pre (i + 1) ks fs
    | (fs, r) => (fs, r)

end

/-- psdexporter/main.go:33-53 `main`, given the file.  It panics with the error if anything fails; here the outcome is that error. -/
def exporter (h : Host) (env : Env) (s : St) (fs : Files) : Files × Res Unit :=
  match decode env { skipMergedImage := true } s with
  | .ok ((psd, _), _) => exportLayers h [] 0 psd.layer fs
  | .err e => (fs, .err e)
  | .panic p => (fs, .panic p)
  | .fuel => (fs, .fuel)

end Psd
