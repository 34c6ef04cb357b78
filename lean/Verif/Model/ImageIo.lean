import Verif.Model.Pixel
import Verif.Model.File

/-
Choice of the picture format (/repo/src/utility/imageio/imageio.c), the formats that are read and written with
libraries (jpg.c, png.c, tiff.c) and the name of the rendered picture (/repo/src/cameras/image_film.cpp).

The libraries are not modelled: what they deliver, or are given, is the interface (rows of samples for libjpeg and
libpng, the raster of `TIFFReadRGBAImage` for libtiff).  A read outside of a buffer is `none`.  Pictures have less than
2^31 pixels and `malloc` succeeds.
-/

namespace Spectre.ImageIo

open Spectre.Img

/-! ## Choice of the format -/

/-- The modules bmp.c, tga.c, ppm.c, jpg.c, png.c and tiff.c. -/
inductive Format | bmp | tga | ppm | jpg | png | tiff
  deriving DecidableEq, Repr

/-- The macros `JPEG_FOUND`, `PNG_FOUND` and `TIFF_FOUND`, set for imageio.c in CMakeLists.txt:129-195. -/
structure Build where
  jpeg : Bool
  png : Bool
  tiff : Bool
  deriving DecidableEq, Repr

/-- `img_write`, imageio.c:8-31: the module called, if there is one. -/
def writer (b : Build) (ext : List Char) : Option Format :=
  if ext = ['b', 'm', 'p'] then some .bmp
  else if ext = ['t', 'g', 'a'] then some .tga
  else if ext = ['p', 'p', 'm'] then some .ppm
  else if b.jpeg ∧ (ext = ['j', 'p', 'g'] ∨ ext = ['j', 'p', 'e', 'g']) then some .jpg
  else if b.png ∧ ext = ['p', 'n', 'g'] then some .png
  else if b.tiff ∧ (ext = ['t', 'i', 'f'] ∨ ext = ['t', 'i', 'f', 'f']) then some .tiff
  else none

/-- `img_valid`, imageio.c:33-59. -/
def checker (b : Build) (ext : List Char) : Option Format :=
  if ext ≠ [] then
    if ext = ['b', 'm', 'p'] then some .bmp
    else if ext = ['t', 'g', 'a'] then some .tga
    else if ext = ['p', 'p', 'm'] then some .ppm
    else if b.jpeg ∧ (ext = ['j', 'p', 'g'] ∨ ext = ['j', 'p', 'e', 'g']) then some .jpg
    else if b.png ∧ ext = ['p', 'n', 'g'] then some .png
    else if b.tiff ∧ (ext = ['t', 'i', 'f'] ∨ ext = ['t', 'i', 'f', 'f']) then some .tiff
    else none
  else none

/-- `img_dimensions`, imageio.c:61-84; the branch for TIFF depends on `JPEG_FOUND`, line 79. -/
def measurer (b : Build) (ext : List Char) : Option Format :=
  if ext = ['b', 'm', 'p'] then some .bmp
  else if ext = ['t', 'g', 'a'] then some .tga
  else if ext = ['p', 'p', 'm'] then some .ppm
  else if b.jpeg ∧ (ext = ['j', 'p', 'g'] ∨ ext = ['j', 'p', 'e', 'g']) then some .jpg
  else if b.png ∧ ext = ['p', 'n', 'g'] then some .png
  else if b.jpeg ∧ (ext = ['t', 'i', 'f'] ∨ ext = ['t', 'i', 'f', 'f']) then some .tiff
  else none

/-- `img_read8`, imageio.c:86-108. -/
def reader (b : Build) (ext : List Char) : Option Format :=
  if ext = ['b', 'm', 'p'] then some .bmp
  else if ext = ['t', 'g', 'a'] then some .tga
  else if ext = ['p', 'p', 'm'] then some .ppm
  else if b.jpeg ∧ (ext = ['j', 'p', 'g'] ∨ ext = ['j', 'p', 'e', 'g']) then some .jpg
  else if b.png ∧ ext = ['p', 'n', 'g'] then some .png
  else if b.tiff ∧ (ext = ['t', 'i', 'f'] ∨ ext = ['t', 'i', 'f', 'f']) then some .tiff
  else none

/-- `img_supported`, imageio.c:110-130. -/
def supported (b : Build) (ext : List Char) : Bool :=
  if ext = ['b', 'm', 'p'] ∨ ext = ['t', 'g', 'a'] ∨ ext = ['p', 'p', 'm'] then true
  else if b.jpeg ∧ (ext = ['j', 'p', 'g'] ∨ ext = ['j', 'p', 'e', 'g']) then true
  else if b.png ∧ ext = ['p', 'n', 'g'] then true
  else if b.tiff ∧ (ext = ['t', 'i', 'f'] ∨ ext = ['t', 'i', 'f', 'f']) then true
  else false

/-- Modules that are compiled and whose headers are included, imageio.h:19-38 and CMakeLists.txt:37-40, 131, 154,
177. -/
def present (b : Build) : Format → Bool
  | .bmp | .tga | .ppm => true
  | .jpg => b.jpeg
  | .png => b.png
  | .tiff => b.tiff

/-! ## JPEG -/

/-- What libjpeg delivers after `jpeg_start_decompress`: `output_width`, `output_components` and the rows of
`output_width*output_components` samples.  With the defaults used here there is 1 component for grey pictures, 3 for
colour pictures and 4 for CMYK pictures. -/
structure Jpeg where
  width : Nat
  components : Nat
  rows : List (List Byte)
  deriving DecidableEq

/-- The rows have the length that libjpeg promises. -/
def Jpeg.WellFormed (j : Jpeg) : Prop := ∀ r ∈ j.rows, r.length = j.width * j.components

/-- One pixel of a row, jpg.c:155-159; the row has been allocated with `row_len` bytes, lines 145-146. -/
def jpgPixel (row : List Byte) (x : Nat) : Option Pixel :=
  match row[x * 3 + 0]?, row[x * 3 + 1]?, row[x * 3 + 2]? with
  | some r, some g, some b => some (mk r g b)
  | _, _, _ => none

/-- The inner loop, jpg.c:152-161. -/
def jpgRow (w : Nat) (row : List Byte) : Option (List Pixel) := (List.range w).mapM (jpgPixel row)

/-- `jpg_read`, jpg.c:148-162: the pixels in the order of their indices. -/
def jpgRead (j : Jpeg) : Option (List Pixel) := (j.rows.mapM (jpgRow j.width)).map List.flatten

/-- `jpg_write`, jpg.c:28-34 and 47-51: the rows given to libjpeg, three samples for a pixel. -/
def jpgWrite (w h : Nat) (data : List Pixel) : Option (List (List Byte)) :=
  match (List.range (w * h)).mapM fun i => (data[i]?).map fun p => [red p, green p, blue p] with
  | none => none
  | some d => some ((List.range h).map fun y => (d.flatten.drop (y * 3 * w)).take (3 * w))

/-! ## PNG -/

/-- `png_write`, png.c:19-28: the rows given to libpng. -/
def pngWrite (w h : Nat) (data : List Pixel) : Option (List (List Byte)) :=
  (List.range h).mapM fun y =>
    ((List.range w).mapM fun x => (data[y * w + x]?).map fun p => [red p, green p, blue p]).map List.flatten

/-- A pixel with four channels, png.c:150-153. -/
def mk4 (r g b a : Byte) : Pixel :=
  a.setWidth 32 ||| (b.setWidth 32 <<< 24) ||| (g.setWidth 32 <<< 16) ||| (r.setWidth 32 <<< 8)

/-- One pixel of a row with four samples for a pixel, png.c:150-153. -/
def pngPixel (row : List Byte) (x : Nat) : Option Pixel :=
  match row[x * 4 + 0]?, row[x * 4 + 1]?, row[x * 4 + 2]?, row[x * 4 + 3]? with
  | some r, some g, some b, some a => some (mk4 r g b a)
  | _, _, _, _ => none

/-- `png_read`, png.c:145-157, from the rows delivered by libpng after the conversion to RGBA. -/
def pngRead (w : Nat) (rows : List (List Byte)) : Option (List Pixel) :=
  (rows.mapM fun row => (List.range w).mapM (pngPixel row)).map List.flatten

/-- `png_valid`, png.c:55-57: the first 8 bytes are compared with the signature; `fread` may deliver less. -/
def pngValid (file : List Byte) : Option Bool :=
  if 8 ≤ file.length then some (file.take 8 = [0x89#8, 0x50#8, 0x4E#8, 0x47#8, 0x0D#8, 0x0A#8, 0x1A#8, 0x0A#8]) else none

/-! ## TIFF -/

/-- `tiff_write`, tiff.c:26-38, 41: the rows written, and the result; `ok y` tells whether `TIFFWriteScanline` can write
row `y`.  Arguments: rows left, current row. -/
def tiffRows (w : Nat) (data : List Pixel) (ok : Nat → Bool) : Nat → Nat → Option (List (List Byte) × Nat)
  | 0, y => some ([], y)
  | n + 1, y =>
    match (List.range w).mapM fun x => (data[y * w + x]?).map fun p => [red p, green p, blue p] with
    | none => none
    | some d =>
      if ok y then (tiffRows w data ok n (y + 1)).map fun r => (d.flatten :: r.1, r.2)
      else some ([], y + 1)

/-- `tiff_write`, tiff.c:6-44, for a file that can be opened. -/
def tiffWrite (w h : Nat) (data : List Pixel) (ok : Nat → Bool) : Option (List (List Byte) × Bool) :=
  (tiffRows w data ok h 0).map fun r => (r.1, r.2 = h)

/-- A pixel of the raster: `TIFFGetR` is the low byte, then green, blue and alpha (tiffio.h). -/
def abgr (r g b a : Byte) : BitVec 32 :=
  r.setWidth 32 ||| (g.setWidth 32 <<< 8) ||| (b.setWidth 32 <<< 16) ||| (a.setWidth 32 <<< 24)
/-- `TIFFGetR`. -/
def getR (v : BitVec 32) : BitVec 32 := v &&& 0xFF#32
/-- `TIFFGetG`. -/
def getG (v : BitVec 32) : BitVec 32 := (v >>> 8) &&& 0xFF#32
/-- `TIFFGetB`. -/
def getB (v : BitVec 32) : BitVec 32 := (v >>> 16) &&& 0xFF#32
/-- `TIFFGetA`. -/
def getA (v : BitVec 32) : BitVec 32 := (v >>> 24) &&& 0xFF#32

/-- One pixel, tiff.c:108-114. -/
def tiffPixel (channels : Nat) (v : BitVec 32) : Pixel :=
  ((getB v <<< 24) ||| (getG v <<< 16) ||| (getR v <<< 8)) ||| (if channels = 4 then getA v else 0xFF#32)

/-- `tiff_read`, tiff.c:86-120, with all fields present: the result, and the pixels if any are written. -/
def tiffRead (w h channels : Nat) (raster : List (BitVec 32)) : Option (Bool × List Pixel) :=
  if channels = 3 ∨ channels = 4 then
    ((List.range h).mapM fun y =>
      (List.range w).mapM fun x => (raster[(h - 1 - y) * w + x]?).map (tiffPixel channels)).map fun l =>
        (true, l.flatten)
  else some (false, [])

/-! ## The name of the rendered picture -/

open Spectre.Path

/-- The questions asked to the file system, for absolute paths. -/
structure Fs where
  folder : List Char → Bool
  writable : List Char → Bool

/-- How the constructor of the film ends. -/
inductive Opened where
  | out (f : Obj)        -- the output file
  | isFolder             -- `MESSAGE_OUTPUT_ISFOLDER`
  | denied               -- `MESSAGE_W_DENIED`
  deriving DecidableEq

/-- A `File` made from a path, file.cpp:143-197. -/
def fileOf (cwd p : List Char) : Option Obj := (ctorString cwd p).bind mkObj

/-- `ImageFilm::ImageFilm`, image_film.cpp:6-44.  `none` is undefined behaviour in the path functions.  `Console.critical`
ends the program. -/
def openFilm (b : Build) (fs : Fs) (cwd path : List Char) : Option Opened :=
  match fileOf cwd path with
  | none => none
  | some out =>
    match out.absolute, out.extension, (getParent out).bind Obj.absolute with
    | some name, some ext, some parent =>
      if fs.folder name then some .isFolder
      else if fs.writable parent then
        if supported b ext then some (.out out)
        else
          match fileOf cwd (path ++ ['.', 'p', 'p', 'm']) with
          | none => none
          | some out' =>
            match out'.absolute with
            | none => none
            | some name' => if fs.folder name' then some .denied else some (.out out')
      else some .denied
    | _, _, _ => none

/-- `save_image`, image_film.cpp:178-181: the module that writes the picture; without one nothing is written. -/
def saveFormat (b : Build) (out : Obj) : Option (Option Format) := (out.extension).map (writer b)

end Spectre.ImageIo
