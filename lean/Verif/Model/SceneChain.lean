import Verif.Model.SceneDriver
import Verif.Model.Config

/-!
# A scene file and the files it names (`ConfigDriver::parse`, config_driver.cpp:45-88)

Simplification: which file a child's path leads to (config_driver.cpp:73-79) is a parameter; see `Model/File.lean`.
-/

namespace Spectre.Scene

/-- What the renderer, the camera and the filter are made of, config_driver.cpp:57-66, 203-247. -/
structure Settings where
  output : Str
  width : Int
  height : Int
  spp : Int
  sampler : Sampler
  camera : CameraType
  filter : FilterType
  fov : ℚ
  value0 : ℚ
  value1 : ℚ
  cameraPos : V3
  cameraTar : V3
  cameraUp : V3
  deriving DecidableEq

/-- The settings of the driver. -/
def Driver.settings (d : Driver) : Settings :=
  ⟨d.output, d.width, d.height, d.spp, d.sampler, d.camera, d.filter, d.fov, d.value0, d.value1, d.cameraPos, d.cameraTar,
    d.cameraUp⟩

/-- `check_resolution` and `check_spp`, config_driver.cpp:131-157 (the numbers come from `uint` tokens, so they are not
negative); `none` is undefined behaviour. -/
def Driver.check (d : Driver) : Option Driver :=
  match Config.checkResolution d.width.toNat d.height.toNat with
  | none => none
  | some (w, h) =>
    match d.sampler with
    | .random => some { d with width := w, height := h }
    | .stratified =>
      match Config.checkSpp d.spp.toNat with
      | none => none
      | some n => some { d with width := w, height := h, spp := n }

/-- The loop over the children, config_driver.cpp:72-88; `none` is a file that does not exist. -/
def readChildren : List (Option (List Byte)) → Driver → Out Driver
  | [], d => .accept d
  | none :: l, d => readChildren l d
  | some text :: l, d =>
    match parseText text d with
    | .accept d' => readChildren l d'
    | .reject d' => .reject d'
    | .ub => .ub

/-- `parse` up to the deferred objects, config_driver.cpp:45-92: the settings given to the renderer, and the driver
afterwards.  `find` gives the contents of the files at the paths, `none` where there is none. -/
def parseScene (find : List Str → List (Option (List Byte))) (main : List Byte) : Out (Settings × Driver) :=
  match parseText main {} with
  | .reject d => .reject (d.settings, d)
  | .ub => .ub
  | .accept d =>
    match d.check with
    | none => .ub
    | some d =>
      match readChildren (find d.children) { d with children := [] } with
      | .accept d' => .accept (d.settings, { d' with children := [] })
      | .reject d' => .reject (d.settings, d')
      | .ub => .ub

end Spectre.Scene
