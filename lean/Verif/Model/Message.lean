/-!
# Messages (`src/utility/console.cpp`, `src/localization.h`)

`printf` for the conversions that are used, and every call that prints a message with a format.

Simplifications: characters are those of the source; `unsigned int` arguments for `%d` are below 2^31; arguments for `%s`
are strings that end (the buffers of `ConfigDriver::error` are in Model/SceneError.lean).
-/

namespace Spectre.Msg

/-- The types of arguments: `int`, `const char*`, `char`. -/
inductive Ty where
  | int | str | chr
  deriving DecidableEq

/-- An argument. -/
inductive Arg where
  | int (z : Int)
  | str (s : List Char)
  | chr (c : Char)
  deriving DecidableEq

/-- The type of an argument. -/
def Arg.ty : Arg → Ty
  | .int _ => .int
  | .str _ => .str
  | .chr _ => .chr

/-- The decimal digits of a number. -/
def digits (n : Nat) : List Char :=
  if h : n < 10 then [Char.ofNat (48 + n)] else digits (n / 10) ++ [Char.ofNat (48 + n % 10)]
termination_by n
decreasing_by omega

/-- The text of an argument, as `%d`, `%s` or `%c` prints it. -/
def Arg.text : Arg → List Char
  | .int z => if z < 0 then '-' :: digits z.natAbs else digits z.natAbs
  | .str s => s
  | .chr c => [c]

/-- `vfprintf` and `sprintf` (C11 7.21.6.1) with the format and the arguments of console.cpp:80-143: what is printed.
`none` is undefined behaviour: an invalid conversion, no argument for a conversion, or one of another type.  Arguments
that are left over are ignored. -/
def printf : List Char → List Arg → Option (List Char)
  | [], _ => some []
  | c :: f, args =>
    if c ≠ '%' then (printf f args).map (c :: ·)
    else
      match f with
      | [] => none
      | d :: f' =>
        if d = '%' then (printf f' args).map ('%' :: ·)
        else
          match args with
          | [] => none
          | a :: args' =>
            if (d = 'd' ∧ a.ty = .int) ∨ (d = 's' ∧ a.ty = .str) ∨ (d = 'c' ∧ a.ty = .chr) then
              (printf f' args').map (a.text ++ ·)
            else none

open Lean in
/-- The characters of a string, as a list. -/
macro "chars!" s:str : term => do
  let cs := (s.getString.toList.map Syntax.mkCharLit).toArray
  `([$[$cs],*])

/-- A call that prints a message: file and line below `src`, the format, and the types of the arguments. -/
structure Call where
  place : String
  format : List Char
  args : List Ty
  deriving DecidableEq

/-- Every call of `Console.notice`, `warning`, `severe` and `critical`, and every `sprintf` for a message, with the macros
of localization.h:10-176 (not Windows) and config_driver.cpp:165-167 replaced. -/
def calls : List Call := [
  ⟨"accelerators/kdtree.cpp:142", chars! "Out of memory [ KdTree init ]", []⟩,
  ⟨"accelerators/kdtree.cpp:154", chars! "Can't add more assets", []⟩,
  ⟨"accelerators/kdtree.cpp:167", chars! "Out of memory [ KdTree building ]", []⟩,
  ⟨"accelerators/kdtree.cpp:188", chars! "Out of memory [ KdTree flattening ]", []⟩,
  ⟨"cameras/image_film.cpp:15", chars! "Output file %s exists and is a folder", []⟩,
  ⟨"cameras/image_film.cpp:32", chars! "Output file format is not supported, the result will be a NetPBM image. The image will be saved as %s", [.str]⟩,
  ⟨"cameras/image_film.cpp:36", chars! "The folder \"%s\" is not writable or does not exists", [.str]⟩,
  ⟨"cameras/image_film.cpp:43", chars! "The folder \"%s\" is not writable or does not exists", [.str]⟩,
  ⟨"geometry/matrix4.cpp:35", chars! "Initializing a Matrix4 with a NULL pointer to array. Matrix4 was left uninitialized", []⟩,
  ⟨"geometry/matrix4.cpp:246", chars! "Up camera vector is not normalized.Normalizing now.", []⟩,
  ⟨"geometry/point2.cpp:16", chars! "Trying to construct a Point2 with a NaN value", []⟩,
  ⟨"geometry/point2.cpp:26", chars! "Trying to construct a Point2 with a NaN value", []⟩,
  ⟨"geometry/point2.cpp:90", chars! "Comparing infinite values could lead to undefined results", []⟩,
  ⟨"geometry/point2.cpp:101", chars! "Comparing infinite values could lead to undefined results", []⟩,
  ⟨"geometry/point3.cpp:17", chars! "Trying to construct a Point3 with a NaN value", []⟩,
  ⟨"geometry/point3.cpp:28", chars! "Trying to construct a Point3 with a NaN value", []⟩,
  ⟨"geometry/point3.cpp:110", chars! "Comparing infinite values could lead to undefined results", []⟩,
  ⟨"geometry/point3.cpp:122", chars! "Comparing infinite values could lead to undefined results", []⟩,
  ⟨"geometry/vec2.cpp:18", chars! "Trying to construct a Vec2 with a NaN value", []⟩,
  ⟨"geometry/vec2.cpp:20", chars! "Trying to construct a Vec2 with an infinity value", []⟩,
  ⟨"geometry/vec2.cpp:30", chars! "Trying to construct a Vec2 with a NaN value", []⟩,
  ⟨"geometry/vec2.cpp:32", chars! "Trying to construct a Vec2 with an infinity value", []⟩,
  ⟨"geometry/vec2.cpp:44", chars! "Trying to construct a Vec2 with a NaN value", []⟩,
  ⟨"geometry/vec2.cpp:46", chars! "Trying to construct a Vec2 with an infinity value", []⟩,
  ⟨"geometry/vec2.cpp:54", chars! "Initializing a Vec2 with a NULL pointer to array. Vec2 was created with the default constructor", []⟩,
  ⟨"geometry/vec2.cpp:77", chars! "Trying to normalize a zero-length vector", []⟩,
  ⟨"geometry/vec2.cpp:241", chars! "Division by zero", []⟩,
  ⟨"geometry/vec2.cpp:253", chars! "Division by zero", []⟩,
  ⟨"geometry/vec2.cpp:265", chars! "Division by zero", []⟩,
  ⟨"geometry/vec2.cpp:278", chars! "Division by zero", []⟩,
  ⟨"geometry/vec2.hpp:318", chars! "Trying to normalize a zero-length vector", []⟩,
  ⟨"geometry/vec3.cpp:19", chars! "Trying to construct a Vec3 with a NaN value", []⟩,
  ⟨"geometry/vec3.cpp:21", chars! "Trying to construct a Vec3 with an infinity value", []⟩,
  ⟨"geometry/vec3.cpp:32", chars! "Trying to construct a Vec3 with a NaN value", []⟩,
  ⟨"geometry/vec3.cpp:34", chars! "Trying to construct a Vec3 with an infinity value", []⟩,
  ⟨"geometry/vec3.cpp:45", chars! "Trying to construct a Vec3 with a NaN value", []⟩,
  ⟨"geometry/vec3.cpp:47", chars! "Trying to construct a Vec3 with an infinity value", []⟩,
  ⟨"geometry/vec3.cpp:60", chars! "Trying to construct a Vec3 with a NaN value", []⟩,
  ⟨"geometry/vec3.cpp:62", chars! "Trying to construct a Vec3 with an infinity value", []⟩,
  ⟨"geometry/vec3.cpp:71", chars! "Initializing a Vec3 with a NULL pointer to array. Vec3 was created with the default constructor", []⟩,
  ⟨"geometry/vec3.cpp:83", chars! "Trying to construct a Vec3 with a NaN value", []⟩,
  ⟨"geometry/vec3.cpp:85", chars! "Trying to construct a Vec3 with an infinity value", []⟩,
  ⟨"geometry/vec3.cpp:147", chars! "Trying to normalize a zero-length vector", []⟩,
  ⟨"geometry/vec3.cpp:260", chars! "Reflecting around a non normalized centre", []⟩,
  ⟨"geometry/vec3.cpp:272", chars! "Reflecting around a non normalized centre", []⟩,
  ⟨"geometry/vec3.cpp:284", chars! "Refracting around a non normalized interface", []⟩,
  ⟨"geometry/vec3.cpp:306", chars! "Refracting around a non normalized interface", []⟩,
  ⟨"geometry/vec3.cpp:403", chars! "Division by zero", []⟩,
  ⟨"geometry/vec3.cpp:415", chars! "Division by zero", []⟩,
  ⟨"geometry/vec3.cpp:427", chars! "Division by zero", []⟩,
  ⟨"geometry/vec3.cpp:441", chars! "Division by zero", []⟩,
  ⟨"geometry/vec3.cpp:497", chars! "Trying to construct a Normal with a NaN value", []⟩,
  ⟨"geometry/vec3.cpp:499", chars! "Trying to construct a Normal with an infinity value", []⟩,
  ⟨"geometry/vec3.cpp:510", chars! "Trying to construct a Normal with a NaN value", []⟩,
  ⟨"geometry/vec3.cpp:512", chars! "Trying to construct a Normal with an infinity value", []⟩,
  ⟨"geometry/vec3.cpp:523", chars! "Trying to construct a Normal with a NaN value", []⟩,
  ⟨"geometry/vec3.cpp:525", chars! "Trying to construct a Normal with an infinity value", []⟩,
  ⟨"geometry/vec3.cpp:538", chars! "Trying to construct a Normal with a NaN value", []⟩,
  ⟨"geometry/vec3.cpp:541", chars! "Trying to construct a Normal with an infinity value", []⟩,
  ⟨"geometry/vec3.cpp:550", chars! "Initializing a Normal with a NULL pointer to array. Normal was created with the default constructor", []⟩,
  ⟨"geometry/vec3.cpp:562", chars! "Trying to construct a Normal with a NaN value", []⟩,
  ⟨"geometry/vec3.cpp:564", chars! "Trying to construct a Normal with an infinity value", []⟩,
  ⟨"geometry/vec3.cpp:616", chars! "Trying to normalize a zero-length vector", []⟩,
  ⟨"geometry/vec3.cpp:797", chars! "Division by zero", []⟩,
  ⟨"geometry/vec3.cpp:809", chars! "Division by zero", []⟩,
  ⟨"geometry/vec3.cpp:821", chars! "Division by zero", []⟩,
  ⟨"geometry/vec3.cpp:835", chars! "Division by zero", []⟩,
  ⟨"geometry/vec3.hpp:912", chars! "Trying to normalize a zero-length vector", []⟩,
  ⟨"geometry/vec3.hpp:940", chars! "Trying to normalize a zero-length normal", []⟩,
  ⟨"geometry/vec3.hpp:1160", chars! "Reflecting around a non normalized centre", []⟩,
  ⟨"geometry/vec3.hpp:1183", chars! "Reflecting around a non normalized centre", []⟩,
  ⟨"geometry/vec3.hpp:1214", chars! "Refracting around a non normalized interface", []⟩,
  ⟨"geometry/vec3.hpp:1255", chars! "Refracting around a non normalized interface", []⟩,
  ⟨"main.cpp:17", chars! "Input should be in the form: executable input_file", []⟩,
  ⟨"materials/multi_bsdf.cpp:22", chars! "Cannot add more Bdfs", []⟩,
  ⟨"materials/single_brdf.cpp:14", chars! "Added a BTDF where a BRDF was expected in class SingleBRDF", []⟩,
  ⟨"parsers/config_driver.cpp:84", chars! "Unable to open file %s: %s", [.str]⟩,
  ⟨"parsers/config_driver.cpp:141", chars! "Rendered image width should be a multiple of %d for performance reasons. Resolution has been adjusted to %dx%d", [.int, .int, .int]⟩,
  ⟨"parsers/config_driver.cpp:154", chars! "While using a Stratified Sampler, samples per pixel should be a perfect square. Using %d samples", [.int]⟩,
  ⟨"parsers/config_driver.cpp:182", chars! "%s:%d.%d: \x1B[1m%s\x1B[0m\n%s\n%\x1B[32m%s\x1B[0m", [.str, .int, .int, .str, .str, .str]⟩,
  ⟨"parsers/config_driver.cpp:188", chars! "%s:%d.%d: \x1B[1m%s\x1B[0m", [.str, .int, .int, .str]⟩,
  ⟨"parsers/config_driver.cpp:199", chars! "Syntax error: Unexpected character %c", [.chr]⟩,
  ⟨"parsers/config_driver.cpp:286", chars! "Unable to load texture %s", [.str]⟩,
  ⟨"parsers/config_driver.cpp:309", chars! "Duplicate name for material %s. The newest was not inserted into the library", [.str]⟩,
  ⟨"parsers/config_driver.cpp:532", chars! "Reading of file %s failed. The expected extension was .obj but instead the file extension is .%s. File has not been imported", [.str, .str]⟩,
  ⟨"parsers/config_driver.cpp:563", chars! "Duplicate name for shape %s. Shape was not inserted", [.str]⟩,
  ⟨"parsers/config_driver.cpp:596", chars! "Shape \"%s\" not found in any of the .obj parsed", [.str]⟩,
  ⟨"parsers/config_driver.cpp:647", chars! "Missing material %s for object %s while overriding its materials", [.str, .str]⟩,
  ⟨"parsers/config_lexer.l:191", chars! "Unable to open file %s: %s", [.str, .str]⟩,
  ⟨"parsers/parser_obj.cpp:49", chars! "Unable to open file %s: %s", [.str, .str]⟩,
  ⟨"parsers/parser_obj.cpp:168", chars! "Missing material %s for object %s", [.str, .str]⟩,
  ⟨"parsers/parser_obj.cpp:255", chars! "Error while parsing file %s. File file was malformed. Face at line %d refers to a non-existent index", [.str, .int]⟩,
  ⟨"parsers/parser_obj.cpp:271", chars! "Error while parsing file %s. File file was malformed. Face at line %d refers to a non-existent index", [.str, .int]⟩,
  ⟨"parsers/parser_obj.cpp:291", chars! "Error while parsing file %s. File file was malformed. Face at line %d refers to a non-existent index", [.str, .int]⟩,
  ⟨"primitives/box.cpp:18", chars! "Trying to generate a world-space AABB with a NULL matrix", []⟩,
  ⟨"primitives/mesh.cpp:39", chars! "Reached the limit of triangles per mesh", []⟩,
  ⟨"primitives/mesh.cpp:99", chars! "Trying to generate a world-space AABB with a NULL matrix", []⟩,
  ⟨"primitives/sphere.cpp:39", chars! "Trying to generate a world-space AABB with a NULL matrix", []⟩,
  ⟨"primitives/sphere.cpp:68", chars! "Intersection distance < 0", []⟩,
  ⟨"primitives/triangle.cpp:27", chars! "Trying to generate a world-space AABB with a NULL matrix", []⟩,
  ⟨"renderer.cpp:20", chars! "Width must be a multiple of %d", [.int]⟩,
  ⟨"renderer.cpp:39", chars! "Using %d rendering threads", [.int]⟩,
  ⟨"renderer.cpp:92", chars! "Missing camera", []⟩,
  ⟨"renderer.cpp:94", chars! "Missing filter", []⟩,
  ⟨"renderer.cpp:96", chars! "Missing integrator", []⟩,
  ⟨"renderer.cpp:98", chars! "Missing sampler", []⟩,
  ⟨"renderer.cpp:137", chars! "Rendering ended (%s)", [.str]⟩,
  ⟨"textures/texture_image.cpp:40", chars! "Loaded texture %s width and height are not equal or not a power of two", [.str]⟩,
  ⟨"textures/texture_image.cpp:47", chars! "Unable to load texture %s", [.str]⟩,
  ⟨"utility/scene.cpp:59", chars! "Reached the maximum number of lights for thecurrent scene: %d", [.int]⟩,
  ⟨"utility/spectrum.cpp:700", chars! "Spectrum contains one or more NaNs", []⟩,
  ⟨"utility/spectrum.cpp:708", chars! "Spectrum contains one or more infinite values", []⟩,
  ⟨"utility/spectrum.cpp:714", chars! "Spectrum contains one or more NaNs", []⟩,
  ⟨"utility/spectrum.cpp:719", chars! "Spectrum contains one or more infinite values", []⟩,
  ⟨"utility/utility.hpp:271", chars! "Trying to solve ax+b=0 with a=0", []⟩]

end Spectre.Msg
