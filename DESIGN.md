# Design of the verification of spectre-light

Source under study: `/repo` (davidepi/spectre-light, C++/C), read as text only.
Everything below `lean/` is a hand-written Lean 4 model of selected functions
together with kernel-checked proofs about that model.

## How a property is handled

1. The relevant function is transcribed as a small total Lean function
   (`Verif/Model/*.lean`). Every definition cites the file and lines it mirrors
   and says where it simplifies.
2. Machine integers are `BitVec` or `Int`/`Nat` with explicit wrap-around or an
   overflow outcome where it matters. Undefined behaviour (out-of-bounds access,
   use of an uninitialised value, null dereference, signed overflow, conversion
   out of range), uncaught exceptions and waiting forever are distinct outcomes
   (`none`, `Except.error`, or a dedicated constructor), never silently totalised.
3. A short specification, independent of the model's helpers, states what the
   property means; the theorem relates the model to it. Theorems live in
   `Verif/Props/*.lean`; beside each there is an `example` showing that the
   hypotheses are satisfiable by a non-trivial instance.
4. When the code violates the property, the negation is proved with a concrete
   witness (`..._violated`), and a `_partial` theorem states what does hold,
   where possible as an exact characterisation (`..._iff`).
5. Loops without an obvious bound carry a step counter; a separate outcome marks
   its exhaustion, and a theorem shows that this outcome does not occur.
6. The theorems are tested against wrong programs: realistic bugs are put in a
   copy of the model and the build must fail (`seeded/LOG.jsonl`).

## Trusted base

* the Lean 4 kernel (4.33.0), and the axioms `propext`, `Classical.choice`,
  `Quot.sound` only (per theorem: appendix; checked by `vcheck`);
* the faithfulness of the transcription from C++ to Lean (by reading);
* floating point: geometry and radiometry are modelled in exact arithmetic (an
  arbitrary ordered field, or the reals where roots occur), i.e. without rounding,
  unless a file says so. Infinities and NaN are kept by `EF` (ray-box test, kd-tree
  traversal). binary32 rounding (`Model/Float32.lean`, round to nearest even) is
  modelled for the random numbers (C05), the samplers (C07, C08), the grid of the
  Morton codes (C18), the PPM reader (C42, C68) and the settings (C51, C52, C76); the full
  binary32 arithmetic with NaN, infinities, signed zeros and subnormal numbers
  (`Model/Ieee.lean`) for the sampling weights (C150), the kd-tree and the mesh tree
  (C151-C154), normalisation (C156), Fresnel terms and refraction (C157, C158) and the
  shapes (C160 and later);
* the compiler evaluates the expressions as they are written, every operation rounded
  to binary32, as IEEE 754 and the debug flags of `CMakeLists.txt` have it. The release
  flags (`-Ofast -march=native`, CMakeLists.txt:16) allow it to reorder sums, fuse
  products with sums, use reciprocals, flush subnormal numbers to zero and assume that
  there is no NaN or infinity: for such a build the theorems about rounding say nothing, and
  every test for NaN in the sources (`isnan` in sphere.cpp:119) may be removed;
* `std::sort` is "any permutation that is sorted", `std::map`, `std::unordered_map`
  and `std::stack` are finite maps and lists, files are byte lists, memory is never
  exhausted, the host is little endian.

## Which code is modelled

| model file | code |
|---|---|
| Array2D | utility/array2D.hpp |
| Well | utility/wellrng.cpp |
| Tiles | renderer.cpp (tile queue) |
| Sampler | samplers/*.cpp |
| Film | cameras/image_film.cpp (adding samples), samplers/filter_*.cpp supports, renderer.cpp `executor` |
| KdNode, KdTree | accelerators/kdtree.cpp |
| Morton, Bvh | accelerators/bvh.cpp |
| AABB, EF | geometry/AABB.cpp, `RayProperties` |
| Geom | geometry/matrix4.cpp, ray.cpp, vec3/point3, primitives/triangle.cpp |
| Shapes | primitives/sphere.cpp, box.cpp, mesh.cpp (sampling), `equation2` |
| Asset | primitives/asset.cpp |
| Bsdf | materials/multi_bsdf.cpp, single_brdf.cpp, dual.cpp |
| Integrator | integrators/path_tracer.cpp, ray_tracer.cpp, utility/occlusion_tester.cpp |
| Pixel, Bmp, Tga, Ppm | utility/imageio/{imageio,endianness,bmp,tga,ppm} |
| Texture | textures/image_map.cpp, texture_image.cpp, mask_boolean.cpp |
| File | utility/file.cpp, the resolution of included files in parsers/config_driver.cpp |
| Config | parsers/config_driver.cpp (checks), utility/utility.{hpp,cpp} |
| Library | materials/material_library.cpp, textures/texture_library.cpp, utility/scene.cpp |
| Obj | parsers/parser_obj.cpp, parsers/config_driver.cpp:522-570 |
| `Model/Filters.lean` | `src/samplers/filter_{box,tent,gaussian,mitchell,lanczos}.cpp` over the reals; a division by zero is `none` |
| `Model/Specular.lean` | `fresnel_conditions.cpp`, `reflection.cpp`, `refraction.cpp`, `Bdf::sample_value`/`pdf`, `Vec3::reflect`/`refract` over the reals; a division by zero is `none` |
| `Model/Microfacet.lean` | `microfacet_distributions.cpp`, `microfacet.cpp` over the reals, `normalize` exact |
| `Model/OrenNayar.lean` | `oren_nayar.cpp` over the reals; a division by zero is `none` |
| `Model/Frame.lean` | `shading_space.cpp`, `texture_height.cpp` and `texture_normal.cpp` (bump), `calculate_differentials` over the reals, `normalize` exact, of a zero vector `none` |
| `Model/Camera.lean` | `src/cameras/camera*.cpp`, `Matrix4::set_lookAt_inverse` over the reals, `normalize` exact; an uninitialised matrix is `none` |
| `Model/Light.lean` | `sphere.cpp`, `area_light.cpp`, the areas of `triangle.cpp` and `box.cpp`, placement of a shape (`config_driver.cpp:612-626`), weights of `direct_l` (`ray_tracer.cpp:34-71`) over the reals; a division by zero or an unset hit is `undefined`/`none` |
| `Model/Color.lean` | `color.cpp`, `spectrum.cpp` (both builds), `cauchy` and `sellmeier` of `refraction.cpp`, `ImageFilm::save_image` over the reals; a root of a negative number or a division by zero is `none` |
| `Model/SceneGrammar.lean` | the rules of `config_parser.y` and the tables and engine of `config_parser.tab.cc` (`parse`, 449-1480), number by number; the error recovery is absent from the grammar, so the first syntax error ends the run; actions are a parameter |
| `Model/SceneScanner.lean` | the rules of `config_lexer.l` as regular expressions and the tables and machine of `lex.yy.cc` (`yylex` 980-1726, `yy_get_previous_state`, `yy_try_NUL_trans`), number by number; the buffer holds the rest of the file, which is refilled only at its end; an access outside of tables or buffer is `none` |
| `Model/SceneDriver.lean` | `ConfigDriver` (members and defaults), the 159 actions of `config_parser.y`, the token values of `config_lexer.l` (`atoi`, `atof` unrounded), reading one file; the file is scanned before it is parsed |
| `Model/SceneChain.lean` | `ConfigDriver::parse` up to the deferred objects: checks, settings of the renderer, children; which file a path leads to is a parameter |
| `Model/SceneBuild.lean` | `load_texture`, `TextureImage::TextureImage`, `build_materials`, `build_dualmaterials`, `build_mask`, the two libraries; file tests are parameters, numbers exact except for the overflow of Blinn's exponent |
| `Model/SceneMesh.lean` | `build_meshes`, `Scene::inherit_asset`, `inherit_light`, `MaskBoolean::is_visible`; meshes are names with a number of faces |
| `Model/SceneError.lean` | where the parser stops; `loc`, `current_pos` and `last_line_pos` of the scanner; `get_line` and `ConfigDriver::error` with their two buffers; the text of the message is not modelled |
| `Model/Message.lean` | `printf` for `%d`, `%s`, `%c`, and the formats and types of arguments of every call that prints a message; generated from the source with macros replaced |
| `Model/ImageIo.lean` | choice of the format in imageio.c; jpg.c, png.c and tiff.c around the libraries (their rows and rasters are parameters); `ImageFilm::ImageFilm` and the extension used by `save_image` (the file system is a parameter) |
| `Model/Queue.lean` | progress bar and estimated time (binary32); the threads of the renderer, their mutex and their queue, interleaved step by step; seeds of the workers |
| `Model/Memory.lean` | array of triangles of a mesh; allocation, use and release of shapes, their arrays and assets from `parse` to `~Scene` (an asset with its own arrays is one block) |
| `Model/MaskHit.lean` | masks at intersections, with the differentials of the reused or uninitialised hit point; the primary rays of a worker one after the other (each at one triangle, without the trees) |
| `Model/FileSystem.lean` | a file system (tree of folders and files, without links); what a `File` knows about its path, `mkdir`, `mkdirs`, `ls`; assignment and copy of `File` objects on a heap |
| `Props/WellPoly.lean`, `WellPrimes.lean`, `WellOrder.lean`, `WellPeriod.lean`, `WellRank.lean` | no model: arithmetic of polynomials over two elements, prime certificates and elimination, for C04, C146 and C147 |
| `Model/Single.lean` | `SingleBRDF` and `DualBsdf` (single_brdf.cpp, dual.cpp) over the layers of `Model/Bsdf.lean` and the frames of `Model/Frame.lean`; exact real arithmetic |
| `Model/Ieee.lean` | binary32 with signed zeros, subnormals, infinities and NaN, rounding to nearest even; one NaN |
| `Model/Direct.lean` | density of a light sample (area_light.cpp:61-118) and the weights of the direct light (ray_tracer.cpp:34-60) in binary32; one colour channel; the intersection with the light is a parameter |
| `Model/FloatTree.lean` | the ray-box test (AABB.cpp, ray.hpp) and the traversal of the kd-tree (kdtree.cpp:415-514) in binary32; boxes and splits are finite floats given by their value |
| `Model/FloatBvh.lean` | the construction of the BVH (bvh.cpp:130-318) with surfaces in binary32 that may overflow, and its traversal with the test of `Model/FloatTree.lean`; triangle hits are a parameter |
| `Model/Metals.lean` | the table of metals (metals.hpp:75-on, copied by a script) and how a metal of a configuration is turned into its reflectance (config_driver.cpp:466-474, fresnel.cpp), over the reals |
| `Model/Normalize.lean`, `Model/IeeeLemmas.lean` | `Vec3::normalize` and `is_normalized` (vec3.cpp:135-163, vec3.hpp) in binary32 with a correctly rounded square root |
| `Model/FloatMaterial.lean` | the Fresnel terms, mirrors and refraction (fresnel_conditions.cpp, reflection.cpp, refraction.cpp) in binary32, one channel |
| `Model/Run.lean` | `main`, the order of the steps in `ConfigDriver::parse` and `Renderer::render`, and the exit status |
| `Model/FloatTriangle.lean` | `Triangle::intersect` up to the mask (triangle.cpp:55-85, 89, 103-104) in binary32 |
| `Model/BigSphere.lean` | the sphere as the shape of an instance (sphere.cpp:102-118, 138-141), in exact arithmetic |
| `Model/FloatSphere.lean` | `equation2` (utility.hpp:289-312) and `Sphere::intersect` without the surface data (sphere.cpp:63-136) in binary32; the mask and `std::isnan` are parameters |
| `Model/FloatMicrofacet.lean` | GGX and the sampling of Beckmann (microfacet_distributions.cpp:105-161) and the diffuse sampling (bdf.cpp:17-30) in binary32; `cosf`, `sinf` and `log` are parameters |
| `Model/FloatFilm.lean` | one pixel of the film (image_film.cpp:46-51, 77-91, 157-174) and `ColorXYZ::to_sRGB` (color.cpp:153-178) in binary32; `powf` is a parameter, the samples of the pixel are a list |
| `Model/FloatFilter.lean` | the pixels that a sample updates along an axis (image_film.cpp:54-69) and the tent, Gaussian, Mitchell and Lanczos weights in binary32; `expf` and `sinf` are parameters |
| `Model/Alias.lean` | the operations of vec2.cpp, vec3.cpp, point2.cpp, point3.cpp and matrix4.cpp that write through a reference or pointer, as assignments on a memory of binary32 numbers; release build; the expressions of `Matrix4::inverse` are a parameter (they are in `Model/Geom.lean`) |
| `Model/Compare.lean` | `==`, `!=`, `saturate`, `max`, `min` of the geometry classes in binary32, an object being the list of its members |
| `Model/FloatPlace.lean` | matrix4.cpp (products, inverse, translation, scale, rotations), the boxes of sphere.cpp, box.cpp and triangle.cpp and the rays in object space in binary32; cosine and sine are any numbers in [-1, 1] |
| `Model/FloatRough.lean` | oren_nayar.cpp and, of microfacet_distributions.cpp, `Blinn`, densities and shadowing of `Beckmann`, `GGXaniso`, in binary32; `powf`, `expf` and the azimuth are parameters |
| `Model/FloatFrame.lean` | shading_space.cpp, `Matrix4::set_lookAt_inverse` of matrix4.cpp and the directions of the rays of the three cameras in binary32; sine and cosine are parameters |
| `Model/FloatTexture.lean` | `calculate_differentials` of hit_point.cpp, the coordinates of texture_image.cpp:61-68 and the filters of image_map.cpp in binary32; `log2f` is a parameter |
| `Model/FloatLight.lean` | `sample_point` and the densities of box.cpp, mesh.cpp, triangle.cpp and sphere.cpp, with the direction of area_light.cpp, in binary32; sine and cosine are parameters |
| `Model/FloatBox.lean` | `Box::intersect` of box.cpp in binary32, with infinities and NaN for rays parallel to faces; the mask is left out |
| `Model/FloatAsset.lean` | the transformation of hits in `Asset::intersect` of asset.cpp in binary32, for any shape; `Box::intersect` as one |
| `Model/FloatArea.lean` | `get_scale` of matrix4.cpp, `surface` of sphere.cpp, box.cpp and triangle.cpp for a placement, `invarea` and the density of emitted light of area_light.cpp, in binary32 |
| `Model/FloatDirect.lean` | the sample of the material in `direct_l` of ray_tracer.cpp in binary32, one channel; the sample of the light is in `Model/Direct.lean` |
| `Model/FloatPath.lean` | `radiance` and `l_rec` of path_tracer.cpp in binary32 with the three channels of the colour build; a path is given by what is met at its vertices |
| `Model/FloatChoice.lean` | the choice of a light in ray_tracer.cpp and of a part in multi_bsdf.cpp by a random number in binary32 |
| `Model/FloatSampler.lean` | the positions of samples of sampler_random.cpp and sampler_stratified.cpp in binary32, one coordinate |

Not modelled: operating system calls, the JPEG/PNG/TIFF codecs, console output, the numerical
quality of the microfacet models.

## Where the code disagrees with its stated or evident intention

Each entry is backed by a theorem (named in the status table).

* Array2D: side 65536 makes addresses negative (C02).
* Film: the last column and row of a sample's support are left out (C11); the
  border of a tile and the deferred samples are updated without mutual exclusion
  (C10).
* kd-tree: flat assets are lost (C13); rays in the plane of a box face compute NaN
  and miss (C14); asset 4097 of a list is written out of bounds (C16); a second
  build appends to the first tree (C17).
* BVH: meshes whose boxes nest overflow the traversal stack (C22); triangles are
  reordered, their material numbers are not (C23); planar meshes convert NaN to
  integers when computing Morton codes (C18).
* AABB: `operator==` compares surfaces only (C24); a box behind the origin is
  accepted (C25).
* Matrix inverse rejects determinants below 1e-5, and `Asset` ignores the failure
  (C26, C63).
* Sphere: with a mask hiding the entry point the exit point is not compared with
  the current distance (C29). Box: wrong normal for rays from inside (C64).
* Mesh sampling: the binary search is off by one, may not end, may read out of
  bounds (C30).
* Layered materials: texture of one layer applied to all, index among the matching
  layers, sixth layer out of bounds, empty material (C32, C33).
* Integrators: roulette weight, factor of the number of lights, emission counted
  twice (C34, C35, C36).
* BMP: padding of odd widths, division by a zero height (C39, C67). TGA: raw
  packets, overlong runs, 16-bit sides, overflow (C40, C41). PPM: `CLAMP`
  precedence, conversion out of range, 16-bit samples, comments (C43, C68).
  `ENDIANNESS_BIG16` loses a byte (C44).
* Textures: level outside of the pyramid, EWA reads, negative coordinates, seam at
  the first half texel, white becomes 254, sides from 65536, anisotropic scale
  (C46, C47, C70, C71, C72, C74).
* Paths: one-character directories before `..`, root, `..` alone, stale names, the
  current directory is changed by children (C48, C49, C50).
* Settings: samples per pixel above 2^24, width 0 (C51, C52). `equation2` invents
  roots (C62).
* Libraries: objects leaked under taken names, dangling map (C54); an asset
  inherited twice is twice in the kd-tree, the 33rd light is dropped (C55).
* OBJ: no end without trailing newline (C57); index 0, indices below -size, wrapping
  indices (C58); two-corner faces (C59); 256 materials, material reset at objects
  (C60); `v/t` corners read old memory (C78); an empty object ends the file (C79).
- **C81** filter.hpp:47-48 documents weights in [0,1]. The default filter (Mitchell 0.33/0.33) and every Mitchell filter with c>0 and b<3, as well as Lanczos, give negative weights; Lanczos with parameter 0 gives NaN.
- **C83/C84** Conductor::eval exceeds 1 for negative cosines; a metal seen from behind reflects more light than it receives. DielectricReflection under total reflection (reflection.cpp:90-91) lacks the division by the cosine of line 103.
- **C86/C91** For outgoing directions with z=0 the pdf of the sample and of pdf() differ; MicrofacetR even accepts samples with a negative pdf.
- **C87** Vec3::refract is wrong for normals pointing away from the vector; MicrofacetT::sample_value can pass such half vectors.
- **C88/C89** Beckmann::D squares the exponential and is not normalised; the pdf of Blinn is (e+2)/(e+1) times the density its sampling has.
- **C90** GGXiso::G1 computes the sine as sqrt(1-cos^4); the fits of Blinn and Beckmann exceed 1 slightly; lambdaGGXaniso returns 1 along the normal (masking 1/3 instead of 1).
- **C92** MicrofacetT uses etao^2 |wo.h| in the Jacobian where etai^2 |wi.h| is needed; Blinn's pdf is not even, so pdf() answers 0 for rays leaving the material.
- **C93** GGXaniso::D returns 1 along the normal instead of 1/(pi ax ay).
- **C94** KdTree::build looks only at the first axis that has a candidate inside of the area (line 360), although the comment says every axis; the test "best cost sucks" (line 365) never holds, since a cost is at most 1+100n and the limit is 200n.
- **C96** MicrofacetT::value has no test that the two directions are on different sides of the microfacet (dot(wo,wh)*dot(wi,wh) < 0).
- **C97** OrenNayar::value (oren_nayar.cpp:40-42) computes sin(phi) as a non-negative root, so cos(phi_i-phi_o) is wrong whenever the directions are on different sides of the x axis. With both directions grazing it divides by zero.
- **C98** ShadingSpace (shading_space.cpp:6-10) takes dpdu as the first axis without making it orthogonal to the interpolated normal: for smooth-shaded meshes the frame is skewed, and to_shading does not undo to_world.
- **C99** TextureHeight::bump adds a slope per unit of texture coordinate to tangents normalised by Asset (asset.cpp:46-47), so the strength of the bumps depends on the stretch of the texture; it turns the normal after computing t (lines 74-75), which leaves a left-handed frame. TextureNormal::bump turns only the normal returned and not the third axis of the frame (lines 41-43); its second axis is -dpdv; no byte decodes to 0 (the usual encoding, but there is no special treatment of 127/128).
- **C100** The differentials are solved along normalised tangents, so they are lengths and not differences of texture coordinates as the filtering of textures takes them; with interpolated normals the plane is not the one spanned by the tangents.
- **C102** CameraOrthographic (camera_orthographic.cpp:65-66, 73-74) adds offsets in camera space to a raster position. camera_tests.cpp tests this with a 2x2 image only, where the two agree.
- **C103** README.md of the parser says "the field of view in degrees" with default 55; config_driver.cpp:242-243 passes the number to a constructor documented in radians. tan(27.5) is negative, which mirrors the image. Above 176.4 degrees Matrix4::inverse refuses (tolerance 1E-5) and camera_perspective.cpp:20-21 goes on with an uninitialised matrix.
- **C104** camera360.hpp says that the target is the centre of the image; camera360.cpp:17-22 puts it at a quarter of the width. (It also calls the projection Mercator; it is equirectangular.)
- **C105** Sphere::intersect replaces x by the tolerance (SELF_INTERSECT_ERROR, 1E-2 of the radius) at a pole and keeps the moved point as the hit point; it is neither on the sphere nor on the ray.
- **C106** Sphere::surface(transform) uses only the x component of the scale, although any scale can be configured. Triangle::surface(transform) scales the corners by the lengths of the columns of the matrix, which is right for the matrices built by the program and wrong for shears.
- **C107** AreaLight::sample_visible_surface computes distance and density in object space but divides by the area in world space; the result is right only for lights that are not scaled. pdf() does the same with a direction that is not normalised, so the two densities of one direction differ. sample_surface transforms a direction drawn in object space and does not normalise it.
- **C108** area_light.cpp:70-73 projects points on the back to the front; the density must then be the sum over both points, but is that of the front point only.
- **C109** The shadow test compares distances in world space with the distance of the light in object space. A light with scale below 1 is hidden by itself and does not light anything through light sampling.
- **C110** The weights are right for correct densities; with the densities of C107 and C108 light is counted more than once.
- **C111** color.cpp:160-171 uses the rounded thresholds 0.04045 and 0.0031308 of the standard, which do not meet: coding jumps down by less than 1E-6 at the threshold.
- **C112** image_film.cpp:169-174 truncates instead of rounding, and the two matrices are inverse only up to 1E-7: in exact arithmetic a white texture under white light is saved as (254,255,254). Floats may hide or add such errors.
- **C114** spectrum.cpp:399 has exp(x)+1 where Planck's law has exp(x)-1.
- **C115** Without SPECTRAL, a sampled spectrum (the metals) is reduced to the means of its short, middle and long wavelengths, stored as X, Y, Z. A metal that reflects long wavelengths best, like copper, gets its largest value in Z (blue).
- **C116** With SPECTRAL, texture colours are not decoded before they are converted to spectra, but the result is coded when saved: textures come out lighter.
- **C117** sellmeier does not check its coefficients: a resonance in the visible range makes the index NaN or infinite.
- **C118** to_AdobeRGB takes powers of negative numbers for colours outside of the gamut.
- **C121** A string in single quotes that ends with a backslash runs on to the next quote of the file, because the rule allows a backslash both as itself and as an escape; between double quotes it is no string. `E10`, which the README gives as a number, is refused, and `integrator: pt` of its example is the metal platinum, so the example is a syntax error.
- **C122** `world` and `light` objects must begin with `name`, while all other objects take their keys in any order; an empty file and an empty `resolution`, `filter` or `camera` object are syntax errors. A texture is loaded with the filter set before it: `filter:{texture:…}` further down has no effect on it. `diffuse: [r,g,b]` wins over `diffuse: "name"` whichever is written last.
- **C123** A number without point is read by `atoi` even for keys of type float: `value0: 3000000000` is undefined.
- **C124** The renderer, camera and filter are made before the children are read, so settings in children have no effect, contrary to the README.
- **C125** A texture reference is looked up by the last component of its path: `"b/w.tga"` gets the library texture `w.tga`, even if that is `a/w.tga`; a texture registered under a name with `/` is never found. Two textures of one file share the filter of the first.
- **C126** Blinn's exponent `2/x²-2` is infinite for roughness below 2^-63.5. A matte material with roughness 0 and an anisotropy is Oren-Nayar with 0.1, not Lambertian. A dual material whose name exists is dropped without warning, and one that refers to a later dual material gets the default one.
- **C127** `rotation`, documented in degrees, is used as radians. A mask whose texture is missing is not disabled but white: inverted, it hides the object. Of more than 32 lights the last ones of the file are kept, because objects are built from the last to the first.
- **C129** `ConfigDriver::error` writes outside of `under[128]` for a token of 65 to 123 bytes that ends after column 123, and for every error in a second file after a first file whose last line is long and has no end (`loc` is not reset by `scan_begin`). If the last line of the file has no end, uninitialised bytes of `buf` are read. The rule for `bump` in config_lexer.l has no action, so that after it other parts of the file are shown; lines inside of strings are not counted.
- **C130** image_film.cpp:15 prints `%s` without an argument, config_driver.cpp:84 prints two `%s` with one argument, and the format of config_driver.cpp:182 contains the invalid conversion `%\x1B`, so that every report of a scene error with its line is undefined behaviour.
- **C131** `img_dimensions` guards the branch for TIFF with `JPEG_FOUND`: with libtiff and without libjpeg the size of a TIFF texture is uninitialised; with libjpeg and without libtiff the program does not link.
- **C133** `tiff_write` increases `y` in the call that may fail, so that a failure in the last row is reported as success. (`png_write` always reports success; libpng aborts the program on errors.)
- **C134** `jpg_read` reads three bytes for a pixel from rows that have `output_components` bytes for a pixel: reads behind the row for grey JPEG. `png_valid`, `png_dimensions` and `png_read` ignore the result of `fread` and compare uninitialised bytes for files of less than 8 bytes.
- **C135** An output path such as `renders/` (no such folder) becomes `renders/.ppm`, a hidden file without extension; `img_write` does nothing and `render` ignores the result of `save_image`.
- **C136** The listener starts before the workers; as long as no job is taken, `eta` is NaN or infinite and its conversion to `time_t` is undefined.
- **C137** `progressBar` calls `jobs->size()` without `jobs_mtx` and reads the ordinary `bool` `alive` that `kill` writes: two data races, undefined in C++ (a comment in the code accepts the first).
- **C138** A release worker whose words of the seed all are `-k` renders its k-th job with a generator that returns only zeros; two debug workers with seeds that differ by `m` render with the same numbers, `m` jobs apart.
- **C139** `Mesh(0)`, and a mesh finalised while empty, double a size of 0: the next triangle is written outside of the array. (Not reached by the program, which calls `Mesh(1)` and adds nothing after `finalize`.)
- **C140** The arrays of a mesh with a duplicate name, the two arrays made for every sphere, and every light after the 32nd are never freed.
- **C141** Masks are asked with the differentials that the ray before has left in the hit point (primary rays) or with an uninitialised flag (first ray of a worker, shadow rays, rays to lights, sampled rays of the ray tracer); and a triangle passes `du` in the place of `dv` (triangle.cpp:104).
- **C143** The parent of a file claims to be a file and no folder (`get_parent` copies the result of `stat`), so that `ls` of it is empty. The program only appends to parents (which asks the system again) or asks whether they are writable.
- **C144** A file with a backslash in its name is listed as a path with one more folder.
- **C145** `File::operator=` never frees the old string, and an assignment of an object to itself copies uninitialised memory.
- **C148** `SingleBRDF::sample_value` does not check on which side of the surface the sample lies (as `value` and `MultiBSDF::sample_value` do): with a bump map paths enter opaque objects.
- **C150** The densities are squared in float: a light sample with a density of 2^64 or more (a light of area 2^-30 at distance 2^17) has the weight inf/inf, and the pixel becomes NaN. Two densities of at most 2^-75 give 0/0.
- **C151** The box test compares rounded distances without a tolerance: a ray from the origin with direction (0.76, 0.65, 0.001) that crosses a box close to an edge is rejected, because the rounded exit distance of one axis is smaller than the rounded entry distance of another. A ray in the plane of the entry face of the first axis (direction component zero) gets the entry distance 0·∞ = NaN, and the asset is never tested although the box test answers yes.
- **C153** `findBestMatch` and `combineCluster` start at INFINITY and compare with `<`: when the surface of a union overflows (objects about 2^64 apart), cluster 0 is merged with itself and overwritten, and its triangles are lost without an error; with an infinite surface everywhere `left` keeps 0xFFFFFFFF or the value of the previous round.
- **C155** Without SPECTRAL a metal keeps three averages of its 16 constants, short wavelengths first; they are then used as X, Y and Z, so blue and red change places. Gold comes out with a negative red and a blue above 0.8, copper with more than twice as much blue as red.
- **C156** `normalize` squares the components in float: a vector with a component of 2^64 or more becomes the zero vector, one with three components of at most 2^-75 becomes infinities and NaN, and (17·2^-78, 0, 0) becomes (17/16, 0, 0).
- **C157** `DielectricReflection` divides by |wo.z| without a test: along the surface with equal indices the value is NaN. `ConductorReflection` uses the cosine with its sign, so a metal seen from behind reflects more light than it receives.
- **C159** `Renderer::render` ignores the result of `save_image` (renderer.cpp:147) and returns 0: when the picture cannot be written the program still ends with status 0 (`C159_violated`).
- **C160** `Triangle::intersect` leaves cracks: the rectangle (1,1)-(4,2) split along its diagonal is missed by a ray that crosses it strictly inside one of the two triangles (`C160_violated_crack`). With edges of 2^43 the products overflow, the distance is NaN, and the triangle is hit although its plane lies behind the ray (`C160_violated_nan`).
- **C161** `equation2` accepts discriminants down to -1e-4 as a touching ray. In object space the discriminant is divided by the square of the scale, so a sphere of radius s is hit by every ray that passes its centre within s*sqrt(1+s^2/40000): for radius 200 a ray at the distance 250 hits it (`C161_violated`), for radius 1000 one at 5000 would, if the bounding box let it through.
- **C162** `equation2` computes `b*b-4ac` with a relative error of 2^-24 on numbers of the size R^2, R being the distance from the sphere in radii. A ray through the centre from the origin -2417*(1/2, 7/8, 7/8), about 3226 radii away, has the computed discriminant -8 and misses (`C162_violated_far`). `Sphere::intersect` marks a missing second solution by NaN and asks `std::isnan`; the release flags (`-Ofast`, CMakeLists.txt:16) allow the compiler to take that for false, and then a masked exit point leads to a hit at the distance NaN if the mask accepts a point that is not a number (`C162_violated_fastmath`).
- **C163** `GGXiso::sample_wh` divides `1-r0` by `r0*(a2-1)+1`. If the squared roughness is at most 2^-25, `a2-1` rounds to -1, and for the random number 1.0 (which the generator returns, C05) the half vector is 0/0 = NaN. config_driver.cpp replaces only a roughness of exactly 0 (lines 396-397), so `roughness: 0.0001` gets there (`C163_violated_sample`). `GGXiso::D` asks for `h->z == 0` but divides by `h->z*h->z`: below 2^-75 the square is zero and the density NaN (`C163_violated_density`). `D` also loses half of its digits near the normal (`C163_density_half_digits`), as the sine is computed from the squared cosine; `C163_density_accuracy_partial` shows that it never gets worse.
- **C164** `ImageFilm::add_pixel` guards against negative colours with `color.r<0`, which is false for NaN. A single NaN sample stays in the sums; `max(0.f, NaN)` of utility.hpp is NaN and `min(NaN, 255.f)` is 255, so all three bytes of every pixel the sample reaches are 255 (`C164_violated_nan`). The bytes also depend on the order of the additions and so on the schedule of the threads: `C164_violated_order` has five samples with red byte 0 in one order and 1 in the reverse order. Sample counts are floats and stall at 2^24 (`C164_violated_count`).
- **C165** Filter parameters of the scene file are not checked. With a falloff of -100 the Gaussian computes `inf-inf` at distance one, so weights are NaN (`C165_violated_gaussian`); with `tau` 0 every Lanczos weight beside the centre is 0/0 (`C165_violated_lanczos`). A NaN weight makes the count of a pixel NaN, and the pixel stays black or is spoiled (C164).
- **C166** `Vec3::cross(target, output)`, `Vec3::refract`, `Matrix4::transpose` and the free function `mul` write members of the output while they still read the inputs: with the same object as input and output the result is wrong (`C166_violated_cross`, `_refract`, `_transpose`, `_mul`). The headers do not exclude this, and `inverse`, `*=`, `reflect` and the compound assignments do allow it. No caller in the renderer passes the same object.
- **C167** `==` and `!=` of vectors and points are written as two separate comparisons with `FLT_EPSILON`; for NaN members and equal infinities both are false (`C167_violated_infinity`). The tolerance is absolute, so equality is not transitive (`C167_violated_transitive`) and means identity beyond two (`C167_large`). Vector `max` and `min` take the argument if one side is NaN, point `max` and `min` keep the own member (`C167_nan`).
- **C161** At the poles of a sphere `point_h.x` is set to `SELF_INTERSECT_ERROR` in object space to avoid a zero tangent (sphere.cpp:104-105); in the scene the reported point is then off by 0.01 times the radius, 2 units for radius 200 (`C161_violated_pole`).
- **C168** `Matrix4::inverse` multiplies all cofactors by the rounded `1/det`, so the last entry of the inverse of an affine map is not always one: scale 41 gives `1-2^-24` (`C168_violated_inverse`). `Matrix4*Point3` then divides the origin of a ray by it, `Matrix4*Vec3` does not, so points and directions in object space differ by the factor. An infinite coordinate makes the fourth coordinate `0*inf` and the point NaN (`C168_violated_infinite`).
- **C169** In binary32 three materials compute NaN near the horizon: Oren-Nayar for two opposite directions exactly along the surface, where `B*maxcos*sinalpha` is 0 and `tanbeta` infinite (oren_nayar.cpp:56-60, `C169_violated_oren`); Beckmann when `cost2*cost2` and `exp` both underflow, e.g. at cosine `2^-40` (microfacet_distributions.cpp:80-83, `C169_violated_beckmann`); the anisotropic GGX when `inv_cos2*inv_cos2` overflows and `1/sq_term` underflows, e.g. at cosine `2^-32` (microfacet_distributions.cpp:190, `C169_violated_aniso`). The guards test the cosine only for exact zero. The fit of the shadowing exceeds one slightly below its limit 1.6 (`C169_fit_above_one`).
- **C169** `lambdaGGXaniso` returns 1 along the normal ("fully visible") and 0 for a direction along the surface, but the masking is `1/(1+lambda+lambda)`: a third where everything is visible, one where nothing is, for every roughness (microfacet_distributions.cpp:200-203, `C169_violated_masking`).
- **C170** A camera whose target is straight above or below it, with the usual up vector `(0,1,0)`, has no frame: `cross(newup, dir)` is zero, `normalize` divides by zero and no coordinate of the origin or direction of any ray is a number (matrix4.cpp:249-252, `C170_violated_vertical`). Neither the parser nor the camera refuses it.
- **C171** Ray differentials are flagged as known when the tangents are independent, without a look at the neighbouring rays. A ray parallel to the surface (the floor at the horizon) divides by zero and the differentials are NaN (hit_point.cpp:10-20, 48-66, `C171_violated_horizon`). `ImageMapEWA::filter` then converts NaN to `uint8_t`, which is undefined (image_map.cpp:180-186, `C171_violated_ewa`); `ImageMapTrilinear::filter` takes the finest level, although the footprint is infinite (image_map.cpp:118-127, `C171_violated_sharp`).
- **C171** With textures of 256 texels or more all footprints within 2^-23 of 1 round to the last level and read the level after it (image_map.cpp:123-135, `C171_violated_trilinear`); in exact arithmetic it is only the footprint 1 (C46).
- **C171** The rounded weights of the interpolation add up to less than one and the sum is truncated: a white texture of 2x2 texels is read as 254 at some coordinates (image_map.cpp:225-232, `C171_violated_bilinear`).
- **C171** Coordinates from 2^31 on are converted to `int`, which is undefined (texture_image.cpp:64-68, `C171_violated_wrap`).
- **C172** With the random number one and a face whose surface is lost in the sum (a panel of 8 x 8 x 2^-20) the point sampled on a box light has a coordinate that is not a number (box.cpp:219-228, `C172_violated_box`).
- **C172** If the surface of the last triangle of a mesh light is lost in the sum, the random number one makes the search endless (mesh.cpp:201-211, `C172_violated_hang`).
- **C172** Beside a triangle of surface 2^24 any number of triangles of surface one are ignored: they are never chosen and the surface of the light is 2^24 (mesh.cpp:145-168, `C172_violated_absorbed`).
- **C172** Points sampled on a triangle can be beside it by a rounding, as the third weight can be negative (triangle.cpp:129-135, `C172_violated_outside`).
- **C173** Rays in the plane of a face of a box are reported to hit it wherever they pass: `0*inf` is NaN, and NaN is neither greater nor smaller than anything (box.cpp:67-71, `C173_violated`, `C173_violated_plane`, `C173_violated_plane_one`); the ray from (0,-10,-1) along (0,1,1) is said to hit the unit box at (0,-8,1).
- **C171** The stray multiplication in the coefficients of the ellipse makes the form indefinite for diagonal footprints: no texel is visited, and NaN is converted to a byte (image_map.cpp:250, `C171_violated_ewa_diagonal`; exact arithmetic: `C46_ewa_indefinite`).
- **C174** `Box::intersect` does not write `dpdv` (box.cpp:116-129), and `Asset::intersect` normalises it all the same (asset.cpp:47): of a new `HitPoint` it is (NaN, NaN, NaN) for every ray that hits a box (`C174_violated_box`). It goes on to `calculate_differentials` and to the bump maps.
- **C175** The area of a light overflows for lights of the size 2^64, and is zero for the size 2^-80, as squares are formed first (matrix4.cpp:442-448, sphere.cpp:158-163): the density of its light is then zero or infinite (`C175_violated_large`, `C175_violated_small`).

## Status

`partial` means: either the code violates the property as stated (the note says how,
with a theorem), or a part of the statement is not proved (the note says which).

| id | property | status | theorems | note |
|---|---|---|---|---|
| C01 | Tiled 2-D buffer behaves like a matrix | proved | `Array2D.C01_array2d_matrix`, `Array2D.C01_array2d_from_values`, `Array2D.C01_array2d_zero_out`, `Array2D.C01_array2d_copy` | Exact 32-bit address arithmetic; every sequence of writes; sides 0..32768. |
| C02 | Tiled 2-D buffer supports every side its constructor accepts | partial | `Array2D.C02_not_all_sides`, `Array2D.C02_zero_out_wraps`, `Array2D.C02_sides_partial` | Violated by the code: side 65536 gives a negative address; negation proved with witness, partial theorem for sides up to 32768. |
| C03 | Random generator never loses state | proved | `Well.C03_step_bijective`, `Well.C03_orbits_never_merge`, `Well.C03_no_tail` |  |
| C04 | Random generator degenerate seeds | proved | `Well.C04_zero_seed`, `Well.C04_never_dies`, `Well.C04_nonzero_in_32`, `Well.C04_sharp` | A non-zero word at least once in 32 draws, by elimination on the 1024x1024 matrix of the first 32 draws (checked by the kernel). |
| C05 | Random floats are in [0,1] and reach 1.0 | proved | `Well.C05_range`, `Well.C05_one_iff`, `Well.C05_zero_iff` | binary32 conversion modelled exactly. |
| C06 | Render tiles partition the image | proved | `Tiles.C06_tiles_partition`, `Tiles.C06_bad_width`, `Tiles.C06_tiles_nonempty` |  |
| C07 | Samplers visit every pixel of a tile exactly once and stop | proved | `Sampler.C07_random`, `Sampler.C07_stratified`, `Sampler.C07_empty_window_never_stops` | With binary32 rounding. |
| C08 | Stratified sampler fills the sample array with one sample per stratum | proved | `Sampler.C08_one_sample_per_stratum`, `Sampler.C08_float_strata`, `Sampler.C08_non_square_stale` | Exactly one sample per cell in exact arithmetic; binary32 version with rounded cell borders. |
| C09 | Film loses no contribution under any schedule | proved | `Film.C09_no_loss`, `Film.C09_running_total`, `Film.C09_no_deadlock`, `Film.C09_terminates`, `Film.C09_completes` | Transition system of n workers over job queue, film mutex and deferred stacks. When all workers have returned the film is the sum of all contributions, the stacks and the queue are empty and every tile was rendered once; no schedule is infinite and none deadlocks. Pixel additions are atomic steps (C10 says when that is not justified). |
| C10 | Film pixel updates do not race | partial | `Film.C10_border_partial`, `Film.C10_violated`, `Film.C10_violated_drain` | Violated by the code: the secure area includes the column endx and the row endy of the next tile (unlocked/unlocked race), and the drain under the mutex races with the unlocked additions of the tile owning the pixel. Both shown by reachable states. Proved for all images, filters and schedules: no two drains at once, and unlocked/unlocked collisions only on those border pixels. |
| C11 | Sample contributes to every pixel inside the filter support | partial | `Film.C11_updated_iff`, `Film.C11_support_partial`, `Film.C11_violated`, `Film.C11_box_sample_lost`, `Film.C11_tent_weight_lost` | Violated by the code: the upper limit floor(centre+range) is excluded from the loop. Exact characterisation proved: the updated pixels are those in the support except that last column and row; weights are right. |
| C12 | kd-tree node packing is lossless | proved | `KdNode.C12_internal_round_trip`, `KdNode.C12_leaf_round_trip`, `KdNode.C12_injective`, `KdNode.C12_bound_sharp` |  |
| C13 | kd-tree build keeps every asset reachable | proved | `KdTree.C13_every_asset_reachable`, `KdTree.C13_no_foreign_asset`, `KdTree.C13_child_buffers`, `KdTree.C13_sah_split_inside`, `KdTree.C13_flatten_repr`, `KdTree.C13_flat_asset_lost` | Any sort, any split choice; the precondition (boxes with extent) is shown necessary by a witness. |
| C14 | kd-tree intersection finds the closest asset | partial | `KdTree.C14_closest_hit_partial`, `KdTree.C14_violated_face_plane` | Exact arithmetic. All rays except those lying in the plane of a box face, for which a missed hit is proved. |
| C15 | kd-tree traversal stack never overflows | proved | `KdTree.C15_stack_never_overflows`, `KdTree.C15_height_bound` | All rays including degenerate ones, all asset behaviours. |
| C16 | kd-tree asset list stays inside its allocation | partial | `KdTree.C16_violated`, `KdTree.C16_safe_iff`, `KdTree.C16_within_limit_partial` | Violated: asset number 4097 is written out of bounds; exact safety boundary proved. |
| C17 | Rebuilding the kd-tree reflects the new asset set | partial | `KdTree.C17_violated`, `KdTree.C17_first_build_partial` | Violated: a second build appends its nodes after the first tree; first build proved. |
| C18 | Morton codes interleave coordinate bits | proved | `Morton.C18_interleave`, `Morton.C18_injective`, `Morton.C18_pdep_agrees`, `Morton.C18_top_bit`, `Morton.C18_grid_range`, `Morton.C18_flat_mesh_undefined` | Includes the binary32 range of the grid coordinates; planar meshes hit an undefined float to integer conversion. |
| C19 | BVH build places every triangle in exactly one leaf | proved | `Bvh.C19_build_partitions`, `Bvh.C19_bisect_boundary` | Any Morton codes, any admissible box algebra (instance for the real boxes: vAlg_ok). |
| C20 | BVH clustering always merges two distinct clusters | proved | `Bvh.C20_find_best`, `Bvh.C20_combine_cluster`, `Bvh.C20_round_merges_closest_pair` | Includes the incremental update of the closest-pair table. |
| C21 | BVH intersection equals brute force | proved | `Bvh.C21_flatten_repr`, `Bvh.C21_terminates`, `Bvh.C21_equals_brute_force`, `Bvh.C21_mesh_closest_hit` | Whenever the traversal does not overflow its stack (C22); also end to end with the real box test. |
| C22 | BVH traversal stack never overflows | partial | `Bvh.C22_violated`, `Bvh.C22_height_partial`, `Bvh.C22_small_mesh_partial` | Violated: for every legal sort there is a 560-triangle mesh overflowing the stack; safe for height at most 32. |
| C23 | Triangles keep their own material | partial | `Bvh.C23_violated`, `Bvh.C23_unmoved_partial` | Violated: triangles are reordered, their material indices are not. |
| C24 | Bounding boxes combine as a least upper bound | proved | `AABB.C24_inside_iff`, `AABB.C24_engulf_contains`, `AABB.C24_engulf_least`, `AABB.C24_engulf_point`, `AABB.C24_comm`, `AABB.C24_assoc`, `AABB.C24_idem`, `AABB.C24_empty_left`, `AABB.C24_order_independent`, `AABB.C24_fold_contains`, `AABB.C24_surface_mono`, `AABB.C24_longest_axis`, `AABB.C24_eqOp_not_equality` | Any linear order with end points (extended numbers). |
| C25 | Ray-box test accepts exactly the rays whose line meets the box | proved | `AABB.C25_interval_exact`, `AABB.C25_reject_sound`, `AABB.C25_accepts_iff`, `AABB.C25_overloads_agree`, `AABB.C25_behind_accepted`, `AABB.C25_general_direction`, `AABB.C25_models_agree`, `AABB.C25_face_plane_nan` | Exact arithmetic over any ordered field; extended to zero direction components with IEEE infinities. |
| C26 | Matrix inverse is a two-sided inverse | proved | `Geom.C26_det`, `Geom.C26_success_iff`, `Geom.C26_two_sided`, `Geom.C26_transpose`, `Geom.C26_is_matrix_inverse`, `Geom.C26_inverse_affine`, `Geom.C26_round_trip`, `Geom.C26_normal_orthogonal`, `Geom.C26_small_scale_rejected` | Exact arithmetic; against Mathlib det and inverse. Also the limit of the tolerance: scale 1/50 is rejected. |
| C27 | World bounding box contains the transformed shape | proved | `Geom.C27_corners_contain`, `Geom.C27_sphere`, `Geom.C27_box`, `Geom.C27_triangle`, `Geom.C27_mesh` | All affine transforms, exact arithmetic. |
| C28 | Ray-triangle intersection is exact | proved | `Geom.C28_exact`, `Geom.C28_miss`, `Geom.C28_unique` | If and only if, with mask and distance range, exact arithmetic. |
| C29 | Intersection never returns a farther hit | partial | `Shapes.C29_triangle`, `Shapes.C29_box`, `Shapes.C29_sphere_violated`, `Shapes.C29_sphere_partial`, `Shapes.C29_sphere_unmasked_partial`, `Shapes.C29_sphere_on_surface` | Violated by spheres when the mask hides the entry point: the exit point is not compared with the current distance. Holds for triangles and boxes, and for spheres otherwise. |
| C30 | Mesh light sampling picks triangles proportionally to area | partial | `Shapes.C30_violated`, `Shapes.C30_choice_partial`, `Shapes.C30_penultimate_lost`, `Shapes.C30_hang`, `Shapes.C30_single_out_of_bounds`, `Shapes.C30_point_in_triangle` | Violated: the binary search returns the triangle before the right one; the last but one triangle is lost; the search does not end if the last triangle is degenerate and the number is one; one triangle and the number one reads out of bounds. Exact characterisation proved. |
| C31 | Box sampling picks faces proportionally to area | proved | `Shapes.C31_densities`, `Shapes.C31_surface`, `Shapes.C31_face`, `Shapes.C31_covers`, `Shapes.C31_one` | Exact arithmetic, positive scales. |
| C32 | Layered material: sampling and evaluation agree | partial | `Bsdf.C32_violated`, `Bsdf.C32_violated_index`, `Bsdf.C32_same_texture_partial`, `Bsdf.C32_same_texture_spec_partial`, `Bsdf.C32_single_layer_partial`, `Bsdf.C32_single_brdf` | Violated: sample_value multiplies the whole sum by the texture of the chosen layer (indexed by position among the matching layers), value() uses the texture of each layer. Holds if all layers share one texture, and for single layers. |
| C33 | Layered material never indexes outside its layers | partial | `Bsdf.C33_violated_add`, `Bsdf.C33_violated_empty`, `Bsdf.C33_partial`, `Bsdf.C33_empty_nospec_partial` | Violated: adding a sixth layer writes out of the arrays; sampling an empty material with specular allowed reads element -1. Safe for 1 to 5 layers and all random numbers in [0,1]. |
| C34 | Russian roulette keeps the estimator unbiased | partial | `Integrator.C34_expected_value`, `Integrator.C34_violated`, `Integrator.C34_weight`, `Integrator.C34_short_paths_partial`, `Integrator.C34_factor` | Violated: the survivors are multiplied by the termination probability instead of being divided by the survival probability. The exact expectation is computed; every weight w with (1-t)w(t)=1 is shown to be unbiased; paths of up to five vertices are not affected. |
| C35 | Direct lighting accounts for all lights | partial | `Integrator.C35_in_range`, `Integrator.C35_uniform`, `Integrator.C35_expected`, `Integrator.C35_violated`, `Integrator.C35_iff_partial` | Violated: the mean instead of the sum of the contributions is estimated; right exactly for at most one light or a zero sum. |
| C36 | Emission of a directly seen light is counted once | partial | `Integrator.C36_violated_always`, `Integrator.C36_violated`, `Integrator.C36_indirect_partial` | Violated: l_rec and direct_l both add the emission. Every non-zero emission seen directly is counted twice. |
| C37 | Occlusion cache is transparent | proved | `Integrator.C37_cache_transparent`, `Integrator.C37_history_independent` | All scenes and histories of rays with fewer than DEFAULT_BOUNCES bounces (the other ones would read out of the cache). |
| C38 | BMP files written are read back unchanged | proved | `Bmp.C38_round_trip` | All sizes whose file size fits an int, non-zero height (see C67 for zero). |
| C39 | BMP row padding follows the file format | partial | `Bmp.C39_iff`, `Bmp.C39_rows_iff`, `Bmp.C39_violated`, `Bmp.C39_even_partial`, `Bmp.C39_reader_violated` | Violated: rows are padded to a multiple of 4 only for even widths. Exact characterisation proved; the reader has the same error. |
| C40 | TGA files written are read back unchanged | partial | `Tga.C40_partial`, `Tga.C40_violated`, `Tga.C40_wide_truncated` | Violated for images whose pixel count overflows an int and for sides above 65535. Proved for all others. |
| C41 | TGA run-length decoding is correct and in bounds | partial | `Tga.C41_decodes_partial`, `Tga.C41_violated`, `Tga.C41_in_bounds_partial`, `Tga.C41_bounds_iff`, `Tga.C41_violated_bounds`, `Tga.C41_violated_overflow` | Violated: raw packets of more than one pixel are misread, and overlong runs at the end of narrow images are written out of the buffer; the exact set of sizes where this is possible is proved. Files of run packets and single raw pixels are decoded right. |
| C42 | PPM files written are read back unchanged | proved | `Ppm.C42_round_trip` | All sizes whose file size fits an int; binary32 arithmetic of the reader included. |
| C43 | PPM sample values above the declared maximum saturate | partial | `Ppm.C43_violated`, `Ppm.C43_binary_always_undefined`, `Ppm.C43_clamped_always_one`, `Ppm.C43_at_maximum_partial` | Violated by every sample above the maximum: undefined conversion (one byte per sample) or the value 1 (operator precedence in CLAMP). The maximum itself is read as 255. |
| C44 | Pixel format conversions are mutually inverse | proved | `Img.C44_rgb_round_trip`, `Img.C44_bgra_round_trip`, `Img.C44_partial_pixel`, `Img.C44_swap32_bytes`, `Img.C44_swap16_bytes`, `Img.C44_swap32_involutive`, `Img.C44_swap16_involutive`, `Img.C44_big32`, `Img.C44_big16_violated`, `Img.C44_big16_iff` | Conversions and swap_endianness. The macro ENDIANNESS_BIG16 of the C readers loses a byte; shown separately. |
| C45 | Texture pyramid has a 1x1 top and consistent levels | proved | `Tex.C45_levels`, `Tex.C45_mean`, `Tex.C45_block`, `Tex.C45_uniform`, `Tex.C45_arrays` | All sides 2^k with k up to 15 (the constructor takes a 16-bit side). |
| C46 | Texture filtering stays inside the pyramid | partial | `Tex.C46_unfiltered`, `Tex.C46_bilinear`, `Tex.C46_trilinear_level_iff`, `Tex.C46_trilinear_iff`, `Tex.C46_violated`, `Tex.C46_trilinear_partial`, `Tex.C46_ewa_last_level`, `Tex.C46_ewa_one_texel`, `Tex.C46_ewa_indefinite`, `Tex.C46_ewa_negative_texel`, `Tex.C46_ewa_nan`, `Tex.C46_ewa_level`, `Tex.C46_ewa_partial` | Violated: trilinear lookups leave the pyramid exactly for a footprint of one; EWA lookups leave it at the last level, read negative texels for large ellipses and convert NaN for indefinite ones. Unfiltered and bilinear lookups are always safe. |
| C47 | Texture coordinates wrap into [0,1] | partial | `Tex.C47_iff`, `Tex.C47_violated`, `Tex.C47_wrap_partial`, `Tex.C47_negative_lookup` | Violated exactly by negative coordinates, which then read outside of the texture. |
| C48 | Path resolution normalises like the file system | partial | `Path.C48_absolute_partial`, `Path.C48_append_partial`, `Path.C48_violated`, `Path.C48_root_violated`, `Path.C48_relative_violated`, `Path.C48_short_name` | Violated by names of one character before "..", by paths that resolve to the root, by bases that are the root, and by "." or ".." alone. Proved for all other paths. |
| C49 | Parent of a path | partial | `Path.C49_absolute`, `Path.C49_name_partial`, `Path.C49_top`, `Path.C49_violated`, `Path.mkObj_denotes` | The string is right for every path; the name is right except on the second level, where it is stale and the next get_parent reads out of the allocation. |
| C50 | Included scene files resolve relative to the including file | partial | `Path.C50_children_partial`, `Path.C50_violated`, `Path.C50_objects_partial` | Violated by every scene with two relative children, or with one relative child and a relative mesh: current_dir is changed. Proved when no relative child comes before. |
| C51 | Samples per pixel become a perfect square | partial | `Config.C51_kept`, `Config.C51_near_partial`, `Config.C51_distance_partial`, `Config.C51_square`, `Config.C51_violated`, `Config.C51_overflow_iff`, `Config.toF32_eq_fl` | Squares are kept for every int. Proved up to 2^24 with the rounding of (float), sqrtf and the addition; violated above (16781311) and overflowing exactly from 2147441729 on. |
| C52 | Resolution is adjusted to renderable size | partial | `Config.C52_partial`, `Config.C52_defined_partial`, `Config.C52_violated` | Violated by width 0; undefined for the greatest widths and very high narrow images. Proved whenever the computation is defined, and defined for both sides up to 2^24 (binary32 division included). |
| C53 | Material library is insert-once with a permanent default | proved | `Lib.C53_library`, `Lib.C53_no_dangling` | All sequences of calls. A material added under a taken name is leaked. |
| C54 | Texture library ownership | partial | `Lib.C54_ownership_partial`, `Lib.C54_violated`, `Lib.C54_dangling_map`, `Lib.C54_maps_partial` | Violated: an object inherited under a taken name is leaked, and erasing a map leaves textures dangling. No double free and no dangling lookup for any sequence of calls; exact ownership when no name is reused. |
| C55 | Scene keeps at most 32 lights and each asset once | partial | `Lib.C55_lights`, `Lib.C55_once_partial`, `Lib.C55_violated`, `Lib.C55_dropped` | Violated by inheriting an asset twice: it is twice in the kd-tree. The limits on lights hold for all sequences. |
| C56 | OBJ parsing does not depend on buffer boundaries | proved | `Obj.C56_token_spec`, `Obj.C56_tokens`, `Obj.C56_file` | For every chunk size the whole reading of a file (meshes, names, materials, faults) is the same, and a token is characterised by the remaining bytes alone. Files containing the sentinel byte 7 are outside of the statement. |
| C57 | OBJ parsing terminates | partial | `Obj.C57_partial`, `Obj.C57_no_fuel`, `Obj.C57_violated` | Holds for files ending with a line end. Violated otherwise: any last line without line end makes the reader spin forever. |
| C58 | OBJ face indices | partial | `Obj.C58_fetch`, `Obj.C58_in_range`, `Obj.C58_corner_partial`, `Obj.C58_violated`, `Obj.C58_violated_wrap` | Indices in range designate the right element and nothing outside is read. Violated: index 0 is not reported, an index below -size ends the program by an uncaught exception, indices beyond the range of int wrap. |
| C59 | Polygon triangulation | proved | `Obj.C59_fan`, `Obj.C59_count`, `Obj.C59_boundary`, `Obj.C59_line`, `Obj.C59_violated_short` | n-2 triangles, every corner used, signed boundary equal to the polygon boundary for every n>=3. (Outside of the statement: two corners without normals are undefined behaviour, C59_violated_short.) |
| C60 | Per-mesh material table is compact and faithful | partial | `Obj.C60_compact`, `Obj.C60_faithful`, `Obj.C60_reachable`, `Obj.C60_violated`, `Obj.C60_violated_reset` | Proved for at most 255 used materials within one mesh (with 256 it fails, C60_violated). Violated across objects: the current material is reset at every object although the format keeps it. |
| C61 | Elapsed time formatting | proved | `Config.C61_format` | All unsigned durations. |
| C62 | Scalar helpers | partial | `Config.C62_lattice`, `Config.C62_clamp`, `Config.C62_lerp`, `Config.C62_lerp_range`, `Config.C62_equation1`, `Config.C62_equation2_partial`, `Config.C62_equation2_violated` | Exact arithmetic. Violated by equation2 exactly for discriminants in [-1e-4,0), where a root is invented. |
| C63 | Assets are intersected in world space | partial | `Asset.C63_world_space_partial`, `Asset.C63_normal`, `Asset.C63_violated`, `Asset.C63_triangle`, `Asset.C63_box_hit` | Violated for invertible transforms with determinant below 1e-5 (scale 1/50): the failure of inverse is ignored and an unwritten matrix is read. Proved for all others. |
| C64 | Box hits are exact, with the outward normal | partial | `Shapes.C64_violated`, `Shapes.C64_hit_partial`, `Shapes.C64_miss` | Violated for rays from inside: normal of the wrong axis. Distances right for all rays; normals right from outside. |
| C65 | Triangle tangents are the derivatives of the position | proved | `Asset.C65_tangents` | Exact arithmetic; if and only if. |
| C66 | Layered material: sampled density and pdf agree | proved | `Bsdf.C66_pdf` | Components that are specular or on the other side report density zero. |
| C67 | BMP reader decodes both row orders and stays in bounds | partial | `Bmp.C67_decodes`, `Bmp.C67_stride`, `Bmp.C67_safe_partial`, `Bmp.C67_zero_height` | Violated for a zero height (division by zero). Proved for all other files without int overflow. |
| C68 | PPM samples are scaled to eight bits | partial | `Ppm.C68_sample8`, `Ppm.C68_sampleText`, `Ppm.C68_sampleText_wide`, `Ppm.C68_deep_maximum`, `Ppm.C68_violated_deep`, `Ppm.C68_binary_partial`, `Ppm.C68_text_partial`, `Ppm.C68_violated_comment` | Violated by 16-bit binary files (low byte dropped) and by header comments (uninitialised variables). Exact with binary32 arithmetic for one byte per sample and for text files with maxima up to 32767; at most one too high above. |
| C69 | PPM reader fills exactly the announced buffer | proved | `Ppm.C69_in_bounds` | All byte strings. |
| C70 | Bilinear lookups interpolate the repeated texture | partial | `Tex.C70_centre`, `Tex.C70_repeated_partial`, `Tex.C70_seam_violated` | Violated on the first half texel; proved elsewhere. |
| C71 | Filtering keeps the colour of a uniform texture | partial | `Tex.C71_bilinear`, `Tex.C71_trilinear_partial`, `Tex.C71_violated` | Bilinear and unfiltered exact; the blend of two levels loses up to one unit, e.g. white becomes 254. EWA lookups not covered except by the bounds of C46_ewa_level. |
| C72 | Accepted images are usable as textures | partial | `Tex.C72_iff`, `Tex.C72_accepted_partial`, `Tex.C72_violated` | Violated exactly by empty images and sides from 65536 on. |
| C73 | Masks threshold the selected channel | proved | `Tex.C73_mask` | Little endian layout. |
| C74 | Texture differentials follow the scaled coordinates | partial | `Tex.C74_iff`, `Tex.C74_violated`, `Tex.C74_uniform_scale_partial` | Violated exactly when the two scale factors differ. |
| C75 | File name and extension of a path | proved | `Path.C75_extension` | POSIX separators. |
| C76 | Adjusted resolution keeps the aspect ratio | proved | `Config.C76_aspect` | Both sides up to 2^24, whenever the result fits an int. |
| C77 | Nearest multiple of an unsigned number | proved | `Config.C77_nearest` | 32-bit arithmetic. |
| C78 | Face corners are read as written | partial | `Obj.C78_partial`, `Obj.C78_stale`, `Obj.C78_violated` | Proved for v, v//n and v/t/n. Violated for v/t: the normal index is read from behind the terminator, i.e. from an earlier token; a well-formed file is rejected. |
| C79 | Every object with a face is delivered | partial | `Obj.C79_partial`, `Obj.C79_violated` | One call answers true exactly if it read a triangle (or stopped at a wrong face). Violated: an object without faces ends the reading of the whole file. |
| C80 | Measures of a bounding box | proved | `AABB.C80_surface`, `AABB.C80_volume`, `AABB.C80_volume_split`, `AABB.C80_center` | Exact arithmetic. |
| C81 | Filter weights are in [0,1] | partial | `Filters.C81_box_partial`, `Filters.C81_tent_partial`, `Filters.C81_gaussian_partial`, `Filters.C81_mitchell_partial`, `Filters.C81_lanczos_partial`, `Filters.C81_lanczos_defined`, `Filters.C81_violated_mitchell`, `Filters.C81_violated_default`, `Filters.C81_violated_lanczos`, `Filters.C81_violated_lanczos_nan` | Proved for box, tent, gaussian (falloff >= 0) and Mitchell with c=0, 0<=b<=1; Lanczos within [-1,1]. Violated by every Mitchell filter with c>0, b<3 (among them the default one of the program), by Lanczos (negative lobe), and by Lanczos with parameter 0 (NaN). Reals, no rounding. |
| C82 | Filters are symmetric, fade out, and preserve constants | proved | `Filters.C82_symmetric`, `Filters.C82_symmetric_lanczos`, `Filters.C82_border`, `Filters.C82_border_lanczos`, `Filters.C82_outside_lanczos`, `Filters.C82_mitchell_continuous`, `Filters.C82_mitchell_unity`, `Filters.C82_tent_constant` | Reals, no rounding. |
| C83 | Fresnel reflectance is a fraction | partial | `Specular.C83_conductor_partial`, `Specular.C83_violated_conductor`, `Specular.C83_dielectric`, `Specular.C83_reciprocal` | Proved for the dielectric everywhere and for the conductor with cosine >= 0. Violated by the conductor for negative cosines (the reflectance exceeds 1), which reflection.cpp passes for directions below the surface. |
| C84 | Specular reflection carries the reflectance | partial | `Specular.C84_conductor_partial`, `Specular.C84_violated_conductor`, `Specular.C84_dielectric_partial`, `Specular.C84_violated_total` | Proved for metals seen from the front and dielectrics without total reflection. Violated: a metal seen from behind reflects more than it receives; total reflection carries only the cosine (the division of reflection.cpp:103 is missing at 90-91). |
| C85 | Specular refraction obeys Snell's law | proved | `Specular.C85_refraction`, `Specular.C85_reversible`, `Specular.C85_energy` | Reals, no rounding. |
| C86 | Diffuse directions are drawn with the density reported | partial | `Specular.C86_direction`, `Specular.C86_pdf_agrees_partial`, `Specular.C86_violated_grazing`, `Specular.C86_density`, `Specular.C86_lambertian` | Proved for outgoing directions that are not grazing; for wo.z=0 the sample reports a positive pdf where pdf() differs (C86_violated_grazing). |
| C87 | Mirroring and refracting about a normal | partial | `Specular.C87_reflect`, `Specular.C87_refract_partial`, `Specular.C87_violated_behind` | reflect: proved. refract: proved for normals on the side of the vector, violated for the others, which MicrofacetT::sample_value can pass. |
| C88 | Microfacet distributions are normalised | partial | `Microfacet.C88_ggx_partial`, `Microfacet.C88_blinn_partial`, `Microfacet.C88_violated_beckmann`, `Microfacet.C88_aniso` | Proved for GGX, anisotropic GGX and Blinn. Violated by Beckmann: below 1/2. |
| C89 | Half vectors are drawn with the density reported | partial | `Microfacet.C89_ggx_partial`, `Microfacet.C89_violated_blinn`, `Microfacet.C89_violated_beckmann`, `Microfacet.C89_aniso_rate`, `Microfacet.C89_aniso` | Proved for GGX and, for every measurable set of half vectors, for anisotropic GGX. Violated by Blinn (off by (e+2)/(e+1)) and Beckmann. |
| C90 | The visible fraction of the microfacets is a fraction | partial | `Microfacet.C90_ggx_partial`, `Microfacet.C90_violated_ggx`, `Microfacet.C90_fit_partial`, `Microfacet.C90_violated_beckmann`, `Microfacet.C90_aniso_partial`, `Microfacet.C90_violated_aniso`, `Microfacet.C90_smith_aniso_partial`, `Microfacet.C90_blinn_beckmann`, `Microfacet.C90_normal` | Range proved for GGX and, off the normal, for the anisotropic one; the rational fit is within 1/10000. Violated: GGX masks more than Smith (sine taken as sqrt(1-cos^4)), Beckmann exceeds 1 at every roughness, the anisotropic masking is 1/3 along the normal. |
| C91 | Rough reflection is reciprocal and sampled consistently | partial | `Microfacet.C91_reciprocal`, `Microfacet.C91_symmetric_masking`, `Microfacet.C91_sample_partial`, `Microfacet.C91_violated_grazing` | Proved for outgoing directions that are not grazing; for wo.z=0 a negative pdf is accepted. |
| C92 | Rough refraction is sampled consistently | partial | `Microfacet.C92_pdf_agrees_partial`, `Microfacet.C92_violated_blinn`, `Microfacet.C92_violated_jacobian` | Agreement proved for distributions with an even pdf (GGX is) and directions on opposite sides. Violated: Blinn when leaving the material; the Jacobian is too large by the squared ratio of the indices for the straight ray. |
| C93 | Equal roughness along both axes is the isotropic distribution | partial | `Microfacet.C93_isotropic_partial`, `Microfacet.C93_violated_normal`, `Microfacet.C93_constructed_partial` | Violated along the normal, where the density returned is 1. |
| C94 | The kd-tree is split at the cheapest plane | partial | `KdTree.C94_halves`, `KdTree.C94_cheapest_partial`, `KdTree.C94_violated_never_refused`, `KdTree.C94_violated_axis` | Proved among the candidates of the chosen axis. Violated across axes (the search stops at the first axis with a candidate) and for the refusal of splits: the test at kdtree.cpp:365 can never be true in a solid area. |
| C95 | Sampled half vectors are unit vectors on the side of the outgoing direction | proved | `Microfacet.C95_blinn`, `Microfacet.C95_beckmann`, `Microfacet.C95_ggx`, `Microfacet.C95_aniso` | Reals, no rounding; roughness positive for the anisotropic distribution. |
| C96 | Rough refraction is reciprocal up to the squared ratio of the indices | partial | `Microfacet.C96_walter`, `Microfacet.C96_reciprocal`, `Microfacet.C96_dielectric`, `Microfacet.C96_nonneg`, `Microfacet.C96_violated_backfacing` | Reciprocity proved when the reflectances agree, and for the Fresnel term whenever the microfacet separates the directions. Violated: the value is not 0 when both directions see the same side of the microfacet. |
| C97 | Rough diffuse reflection is the Oren-Nayar model | partial | `OrenNayar.C97_coefficients`, `OrenNayar.C97_monotone`, `OrenNayar.C97_defined`, `OrenNayar.C97_symmetric`, `OrenNayar.C97_lower`, `OrenNayar.C97_smooth`, `OrenNayar.C97_model_partial`, `OrenNayar.C97_brighter_partial`, `OrenNayar.C97_violated_azimuth`, `OrenNayar.C97_published` | The model is exact when the two directions are on the same side of the x axis. Violated: the sines of the azimuths are taken without sign, so that other pairs are too bright. |
| C98 | The shading space is an orthonormal frame and its two conversions are inverse | partial | `Frame.C98_frame_partial`, `Frame.C98_round_trip`, `Frame.C98_violated_skewed`, `Frame.C98_violated_smooth`, `Frame.C98_undefined`, `Frame.C98_asset_partial` | Proved when the tangent is orthogonal to the normal. Violated for interpolated normals: the frame is not orthogonalised and the conversions do not undo each other. |
| C99 | Bump mapping gives an orthonormal frame around the perturbed normal | partial | `Frame.C99_height`, `Frame.C99_height_handed`, `Frame.C99_height_tilt`, `Frame.C99_uniform`, `Frame.C99_height_flat`, `Frame.C99_violated_scale`, `Frame.C99_normal`, `Frame.C99_normal_tilt`, `Frame.C99_violated_flat`, `Frame.C99_violated_sides`, `Frame.C99_gradient`, `Frame.C99_texel` | Frames orthonormal in all cases; the tilt is proved for orthonormal tangents. Violated: slopes ignore the length of the tangents, the normal map returns a normal opposite to its frame for tangents of the other orientation and has no flat texel. |
| C100 | Ray differentials are the coordinates of the neighbouring hits in the tangent plane | partial | `Frame.C100_plane`, `Frame.C100_coordinates_partial`, `Frame.C100_accepted`, `Frame.C100_violated_smooth`, `Frame.C100_violated_units` | Exact for tangents orthogonal to the normal; never refused for orthonormal tangents. Violated for interpolated normals, and in the unit: tangents are normalised, so the differentials are lengths. |
| C101 | The camera looks from its position to its target | proved | `Camera.C101_frame`, `Camera.C101_rigid`, `Camera.C101_undefined` | Reals, no rounding, exact normalisation. |
| C102 | Orthographic rays start at their pixel and their neighbours one pixel away | partial | `Camera.C102_ray`, `Camera.C102_centre`, `Camera.C102_neighbours`, `Camera.C102_two_pixels_partial`, `Camera.C102_violated_offset` | The rays are right. Violated: the neighbours are 2/min(width,height) pixels away, one pixel only for images two pixels wide or high. |
| C103 | Perspective rays go through their pixel with the configured field of view | partial | `Camera.C103_ray`, `Camera.C103_neighbours`, `Camera.C103_angle`, `Camera.C103_upright_partial`, `Camera.C103_undefined`, `Camera.C103_violated_degrees` | The camera is right for angles in radians below 176.4 degrees. Violated: the configuration passes degrees, so that the default of 55 gives an upside down image; above 176.4 degrees a matrix is left uninitialised. |
| C104 | The panorama sees every direction once, with the target in the middle | partial | `Camera.C104_ray`, `Camera.C104_covers`, `Camera.C104_injective`, `Camera.C104_poles`, `Camera.C104_violated_centre`, `Camera.C104_neighbours` | Covering is proved. Violated: the target is at a quarter of the width and not in the middle. |
| C105 | A hit sphere reports its surface point, coordinates and tangents | partial | `Light.C105_parametrisation`, `Light.C105_unique`, `Light.C105_frame`, `Light.C105_hit`, `Light.C105_violated_pole` | Proved away from the poles. Violated at a pole, where the point moved for the azimuth is reported and lies off the sphere and the ray. |
| C106 | Light surfaces are sampled uniformly and their areas are right | partial | `Light.C106_sample`, `Light.C106_uniform`, `Light.C106_sphere_partial`, `Light.C106_sphere_placed`, `Light.C106_violated_sphere`, `Light.C106_triangle_partial`, `Light.C106_triangle_placed`, `Light.C106_violated_shear`, `Light.C106_box_placed` | Uniformity proved for the sphere. Areas proved for boxes and triangles as placed by the program and for spheres scaled uniformly; violated for spheres scaled differently along the axes (only scale.x is read), and for sheared triangles (which the program does not build). |
| C107 | Light densities are per solid angle in the scene | partial | `Light.C107_sample`, `Light.C107_pdf`, `Light.C107_rigid_partial`, `Light.C107_sphere_proper`, `Light.C107_violated_scaled`, `Light.C107_emitted`, `Light.C107_violated_emitted`, `Light.C107_emitted_density` | Proved for lights of scale 1. For scale s the sample reports the density divided by s^2 and the distance divided by s, pdf() the density divided by s. |
| C108 | The density of a sphere light integrates to one | partial | `Light.C108_reported`, `Light.C108_direction`, `Light.C108_actual`, `Light.C108_violated` | Both sides computed exactly. Violated: points sampled on the back are projected to the front, but only the density of the front point is reported, so that the density integrates to (1-1/D)/2 at distance D radii. |
| C109 | A light sample is in the shadow exactly if something lies before the light | partial | `Light.C109_test`, `Light.C109_rigid_partial`, `Light.C109_violated_dark`, `Light.C109_violated_missed` | Proved for lights of scale 1. Violated by scaled lights: a light made smaller shadows itself, something in front of a light made larger is missed. |
| C110 | Light and material sampling together count every direction once | partial | `Light.C110_once_partial`, `Light.C110_unseen`, `Light.C110_violated_scaled`, `Light.C110_violated_sphere` | Proved when the light reports the density it samples with. Violated with the densities of C107 (scaled lights) and C108 (spheres). |
| C111 | The sRGB curves invert each other and increase | partial | `Color.C111_decode`, `Color.C111_round_trip_partial`, `Color.C111_gap`, `Color.C111_violated_increasing`, `Color.C111_increasing_partial` | Decoding proved increasing. Coding inverts it except between 0.04044994 and 0.04045, where the error is below 1E-6. Violated: the code is not monotone at its threshold 0.0031308, where it jumps down. |
| C112 | A picture pixel survives the conversion to XYZ and back | partial | `Color.C112_byte`, `Color.C112_pixel_partial`, `Color.C112_violated_grey` | In exact arithmetic every channel comes back as itself or one less, decided by the sign of the error of the two 7-digit matrices; every grey comes back as (k-1,k,k-1). Float rounding, which is of the size of that error, is not modelled. |
| C113 | The saved byte is the number of levels reached | proved | `Color.C113_level`, `Color.C113_channels`, `Color.C113_mean`, `Color.C113_empty` | Over the reals. |
| C114 | Lights given by a temperature follow Planck's law | partial | `Color.C114_normalised`, `Color.C114_black`, `Color.C114_error_partial`, `Color.C114_violated`, `Color.C114_violated_amount` | Normalisation proved. Violated at every temperature: exp(x)+1 is written for exp(x)-1 (spectrum.cpp:399); the exact factor is proved. At 6500 K the ratio of red to violet is more than 7% too small. |
| C115 | The colour of a spectrum is the same in both builds | partial | `Color.C115_luminance`, `Color.C115_linear`, `Color.C115_constant_partial`, `Color.C115_violated_red` | Linearity and the white point within 1% proved. Violated: the build without SPECTRAL stores the means of short, middle and long wavelengths as X, Y and Z; red light becomes blue. |
| C116 | The spectrum of a colour reflects the light the colour stands for | partial | `Color.C116_orders`, `Color.C116_range`, `Color.C116_grey`, `Color.C116_plain`, `Color.C116_violated_coding` | The mixture for all orders and the range proved. Violated: with SPECTRAL the coded components are used as amounts of light; grey 1/2 reflects 49% instead of 21%. |
| C117 | Refraction indices decrease with the wavelength and are defined | partial | `Color.C117_cauchy`, `Color.C117_sellmeier_partial`, `Color.C117_violated_sellmeier` | Cauchy proved. Sellmeier proved for resonances below 400 nm. Violated for a resonance at or inside of the visible range: division by zero or root of a negative number, which is not refused. |
| C118 | Every visible colour has an Adobe RGB | partial | `Color.C118_defined_partial`, `Color.C118_undefined`, `Color.C118_violated` | Defined exactly inside of the gamut; violated by light of 500 nm. |
| C119 | The scene parser accepts exactly its grammar | proved | `Scene.C119_terminates`, `Scene.C119_accepts_iff`, `Scene.C119_rejects`, `Scene.C119_no_undefined_behaviour`, `Scene.C119_unambiguous` | Proved for every list of tokens and all actions; the tables are checked against item sets by the kernel. C119_no_undefined_behaviour assumes that the actions are defined on values of the types of their symbols. |
| C120 | The scene scanner returns the longest match of the first rule | proved | `Scene.C120_end`, `Scene.C120_token`, `Scene.C120_unique`, `Scene.C120_exactly`, `Scene.C120_all`, `Scene.C120_whole` | Proved for every list of bytes; the tables are checked against derivatives of the rules by the kernel. The buffer is taken to hold the rest of the file, so that it is refilled only at the end. |
| C121 | What is written with spaces between is read as written | partial | `Scene.C121_separated_partial`, `Scene.C121_closed`, `Scene.C121_spaced_partial`, `Scene.C121_violated_backslash`, `Scene.C121_violated_quote`, `Scene.C121_violated_documented` | Proved for tokens without backslash. Violated by strings that end with a backslash, by the documented number E10 and by the documented integrator pt. |
| C122 | What a scene file means | partial | `Scene.C122_meaning`, `Scene.C122_rejected`, `Scene.C122_defaults`, `Scene.C122_concatenation`, `Scene.C122_text`, `Scene.C122_text_defined`, `Scene.C122_violated_documented` | Proved for every text. Numbers are exact rationals. The name is required to come first in world and light, and empty files and empty resolution, filter and camera objects are refused, which the README does not say: C122_violated_documented. |
| C123 | Numbers are read as written | partial | `Scene.C123_uint`, `Scene.C123_int`, `Scene.C123_float`, `Scene.C123_unique`, `Scene.C123_undefined`, `Scene.C123_violated` | Proved for every text and file; the rounding of atof to double and float is not modelled. Integers beyond int are undefined, also where a float is documented: C123_violated. |
| C124 | Chained files | partial | `Scene.C124_chain`, `Scene.C124_objects`, `Scene.C124_settings_partial`, `Scene.C124_checked`, `Scene.C124_violated` | Acceptance and objects are proved for all files. The settings are as documented only if the children have none: the renderer is made before the children are read (C124_violated). |
| C125 | Textures by name | partial | `Scene.C125_library`, `Scene.C125_filter_partial`, `Scene.C125_reference_partial`, `Scene.C125_violated_reference`, `Scene.C125_violated_filter` | The library is proved for all statements. References are as documented for names without separators; a reference with a path gets a texture that has the name of the last component, a name with a separator is never found (C125_violated_reference). The filter of a file is the one it was loaded with first (C125_violated_filter). |
| C126 | Materials are built as described | partial | `Scene.C126_metal`, `Scene.C126_glass`, `Scene.C126_glossy`, `Scene.C126_matte`, `Scene.C126_blinn`, `Scene.C126_parameters`, `Scene.C126_library`, `Scene.C126_dual`, `Scene.C126_violated_blinn` | Proved for exact numbers; the exponent of Blinn is infinite for roughness below 2^-63.5 (C126_violated_blinn). References to textures of the library by names without separators. |
| C127 | Objects and lights are placed as described | partial | `Scene.C127_objects`, `Scene.C127_complete`, `Scene.C127_radians`, `Scene.C127_degrees_partial`, `Scene.C127_violated_degrees`, `Scene.C127_mask_partial`, `Scene.C127_violated_mask` | Objects are proved for all statements. Rotations are taken as radians although documented in degrees (C127_violated_degrees); a missing mask is replaced by the white texture, which hides the object if inverted (C127_violated_mask). |
| C128 | A syntax error is found at the first token that cannot be right | proved | `Scene.C128_first`, `Scene.C128_none`, `Scene.C128_rejects`, `Scene.C128_driver`, `Scene.C128_token_read` | Proved for all lists of tokens. |
| C129 | The report of an error shows the right line, column and token | partial | `Scene.C129_position_partial`, `Scene.C129_report_partial`, `Scene.C129_marks`, `Scene.C129_end_partial`, `Scene.C129_violated_long`, `Scene.C129_violated_last_line`, `Scene.C129_violated_second_file`, `Scene.C129_violated_bump`, `Scene.C129_violated_lines` | Proved under the listed conditions, for the first file. Violations: tokens of 65 to 123 bytes that end after column 123, a last line without an end, files after the first one, the word bump, and strings over several lines. |
| C130 | Messages are printed with the arguments that their formats need | partial | `Msg.C130_printf`, `Msg.C130_fits`, `Msg.C130_numbers`, `Msg.C130_missing`, `Msg.C130_invalid`, `Msg.C130_calls_partial`, `Msg.C130_buffers`, `Msg.C130_violated_folder`, `Msg.C130_violated_child`, `Msg.C130_violated_error` | Proved for all calls but three, and for all values of their arguments; the three others are undefined for all values (C130_violated_folder, C130_violated_child, C130_violated_error). |
| C131 | A supported picture format is supported by every operation | partial | `ImageIo.C131_dispatch`, `ImageIo.C131_dimensions_partial`, `ImageIo.C131_iff`, `ImageIo.C131_violated` | Proved for all extensions; the full statement is proved to hold exactly for the builds with both or none of libtiff and libjpeg. |
| C132 | Pictures written with a library are read back as written | proved | `ImageIo.C132_png_rows`, `ImageIo.C132_png_read`, `ImageIo.C132_png_round_trip`, `ImageIo.C132_tiff_round_trip`, `ImageIo.C132_tiff_alpha`, `ImageIo.C132_tiff_grey`, `ImageIo.C132_jpg_rows` | What the libraries deliver for given rows is specified in the statement (fill, rasterOf). |
| C133 | A TIFF that could not be written completely is reported | partial | `ImageIo.C133_failure`, `ImageIo.C133_reported_partial`, `ImageIo.C133_violated` | Proved for failures before the last row; violated by every picture whose last row fails. |
| C134 | Samples of pictures are read inside of their buffers | partial | `ImageIo.C134_colour_partial`, `ImageIo.C134_violated_grey`, `ImageIo.C134_violated`, `ImageIo.C134_violated_cmyk`, `ImageIo.C134_png_signature_partial`, `ImageIo.C134_violated_png_short` | Proved for colour pictures and for files of at least 8 bytes; violated by every grey picture. |
| C135 | The rendered picture is saved under a name with a supported extension | partial | `ImageIo.C135_film`, `ImageIo.C135_saved_partial`, `ImageIo.C135_names`, `ImageIo.C135_names_absolute`, `ImageIo.C135_violated` | Proved for every path that names a file; violated by paths with a separator at the end. |
| C136 | The progress bar shows the share of the jobs taken | partial | `Queue.C136_bar`, `Queue.C136_monotone`, `Queue.C136_full_iff`, `Queue.C136_percent_accurate`, `Queue.C136_eta_partial`, `Queue.C136_eta_violated` | Bar and percentage proved; the time left is proved once a job is taken, and undefined before (the listener starts before the workers). |
| C137 | The queue of jobs is shared safely | partial | `Queue.C137_mutual_exclusion`, `Queue.C137_never_pops_empty`, `Queue.C137_each_job_once`, `Queue.C137_one_worker`, `Queue.C137_all_done`, `Queue.C137_terminates`, `Queue.C137_listener_races_violated`, `Queue.C137_flag_races_violated` | Proved for the workers and the main thread; violated by the listener, which reads the size of the queue and its flag without synchronisation. |
| C138 | Every job has its own random numbers | partial | `Queue.C138_debug_not_zero`, `Queue.C138_zero_iff`, `Queue.C138_first_not_zero`, `Queue.C138_jobs_differ`, `Queue.C138_release_violated`, `Queue.C138_workers_coincide_violated` | Proved for the debug version up to 2^31 jobs, for the first job of a worker, and for the jobs of one worker; violated for a later job of a release worker and for different workers. |
| C139 | A mesh stores its triangles in order and in bounds | partial | `Memory.C139_stored_partial`, `Memory.C139_finalized_partial`, `Memory.C139_violated`, `Memory.C139_violated_finalized` | Proved for meshes made for at least one triangle (the program always asks for one); violated by Mesh(0) and by meshes finalised while empty. |
| C140 | Shapes, arrays and assets are freed exactly once | partial | `Memory.C140_ownership`, `Memory.C140_duplicates`, `Memory.C140_nothing_left_partial`, `Memory.C140_violated_sphere`, `Memory.C140_violated_duplicate`, `Memory.C140_violated_lights` | No double free and no use after free, for all inputs; what is leaked is characterised exactly. |
| C141 | Whether a masked point is hit depends on the ray and the scene | partial | `MaskHit.C141_plain_partial`, `MaskHit.C141_secondary`, `MaskHit.C141_point`, `MaskHit.C141_refused`, `MaskHit.C141_violated_uninitialised`, `MaskHit.C141_violated_stale`, `MaskHit.C141_violated_dv` | Proved without filtered masks and for rays with the differentials switched off; violated for all other rays at filtered masks. |
| C142 | Missing folders are created with their parents | proved | `Fsys.C142_mkdirs`, `Fsys.C142_all_or_nothing`, `Fsys.C142_existing` | File system without links, one user. |
| C143 | A File knows whether its path is a folder | partial | `Fsys.C143_known`, `Fsys.C143_append`, `Fsys.C143_parent_partial`, `Fsys.C143_violated_parent` | Proved for new objects, copies, after mkdirs and for parents of folders; violated by get_parent of a file, which keeps what is known about the file. |
| C144 | A folder lists its entries | partial | `Fsys.C144_ls_partial`, `Fsys.C144_none`, `Fsys.C144_violated` | Proved for names without backslash; violated for names with one. |
| C145 | Copies of a File are independent | partial | `Fsys.C145_assign_partial`, `Fsys.C145_destroy`, `Fsys.C145_copy`, `Fsys.C145_violated_leak`, `Fsys.C145_violated_self` | Copies are proved; every assignment loses the old string, and an assignment to itself reads uninitialised memory. |
| C146 | Random generator has the full period | proved | `Well.C146_period`, `Well.C146_one_cycle`, `Well.C146_state` | The characteristic polynomial is checked by the kernel to be primitive, with certificates for the 16 prime factors of 2^1024-1. |
| C147 | Random numbers are uniformly distributed | proved | `Well.C147_tuples`, `Well.C147_words`, `Well.C147_events`, `Well.C147_values`, `Well.C147_one`, `Well.C147_blocks` | Counts over a whole period. |
| C148 | One reflecting layer: sampling, evaluation and density agree | partial | `Single.C148_agrees_partial`, `Single.C148_violated_bump`, `Single.C148_layered`, `Single.C148_specular`, `Single.C148_construct`, `Single.C148_dual`, `Single.C148_dual_consistent` | Proved for diffuse layers without bump map and for directions that are not grazing; violated with every bump map that changes the normal. |
| C149 | Light samples of points that are not shown are not used | proved | `Direct.C149_hidden`, `Direct.C149_used`, `Direct.C149_back` | In binary32 with signed zeros, infinities and NaN. |
| C150 | Weights of light and material sampling | partial | `Direct.C150_nan_iff`, `Direct.C150_range_partial`, `Direct.C150_sum_partial`, `Direct.C150_violated_large`, `Direct.C150_violated_small`, `Direct.C150_violated_radiance` | Proved for densities up to 2^63 of which one is at least 2^-74 (2^-63 for the sum); violated outside: the weight is NaN for densities of 2^64 or more. |
| C151 | The ray-box test in binary32 | partial | `FTree.C151_contains`, `FTree.C151_no_gap`, `FTree.C151_backward`, `FTree.C151_margin_partial`, `FTree.C151_violated_edge`, `FTree.C151_violated_face` | Proved with a margin of 2^-22 of the distance of each face; violated without: a ray that crosses a box near an edge, inside over an interval of parameters, is rejected. |
| C152 | Traversal of the kd-tree in binary32 | proved | `FTree.C152_completes`, `FTree.C152_no_asset_lost`, `FTree.C152_closest_hit` | Binary32 with rounding, overflow and infinite inverses; direction components up to 3/2, boxes with extent on all axes. |
| C153 | The BVH built in binary32 holds every triangle | partial | `FBvh.C153_build_partial`, `FBvh.C153_lost`, `FBvh.C153_violated_overflow` | Proved for coordinates up to 2^61; violated when a surface overflows: a cluster is merged with itself and dropped. |
| C154 | Construction and traversal of the BVH in binary32 | proved | `FBvh.C154_mesh_closest_hit` | Unless the stack overflows (C22), which takes a tree of more than 32 levels. |
| C155 | Metals have the colour of their constants | partial | `Metals.C155_table`, `Metals.C155_fraction`, `Metals.C155_spectral_partial`, `Metals.C155_violated_gold` | The table and the fractions are proved for all metals and both builds, the hue with SPECTRAL; without SPECTRAL the hue is wrong: short wavelengths are stored as X and long ones as Z, and gold comes out blue. |
| C156 | Normalising a vector in single precision | partial | `Normalize.C156_unit_partial`, `Normalize.C156_stable_partial`, `Normalize.C156_violated_large`, `Normalize.C156_violated_small`, `Normalize.C156_violated_subnormal` | Proved for components up to 2^63 and a squared length of at least 2^-126; violated for larger and smaller vectors. |
| C157 | Fresnel terms in single precision | partial | `FMat.C157_dielectric`, `FMat.C157_reflection_partial`, `FMat.C157_metal`, `FMat.C157_metals`, `FMat.C157_violated_grazing`, `FMat.C157_violated_behind` | The Fresnel terms are proved for indices from 1/1024 to 1024 and every metal of the table; the mirrors divide by the cosine, which fails along the surface, and a metal mirror seen from behind gains light. |
| C158 | Refraction in single precision | proved | `FMat.C158_refraction` |  |
| C159 | The exit status tells whether a picture was written | partial | `Run.C159_picture`, `Run.C159_status_partial`, `Run.C159_refused`, `Run.C159_violated`, `Run.C159_violated_statement` | The status is 0 or 1; with 1 there is no picture; a written picture comes from an accepted scene and all its pixels lie in exactly one tile. If the write succeeds and the output names a file, an accepted scene ends with status 0 and the picture. The full statement is violated: Renderer::render drops the result of save_image, so a failed write ends with status 0 and no picture. |
| C160 | Triangles are hit where they are, in single precision | partial | `FTri.C160_hit_partial`, `FTri.C160_miss_partial`, `FTri.C160_numbers`, `FTri.C160_interpolated`, `FTri.C160_violated_crack`, `FTri.C160_violated_nan`, `FTri.C160_violated_statement` | Hits and misses are proved up to a spread of 2^(p+2q-17)/\|det\| (relative to the sizes 2^p of the direction and 2^q of the edges), reported values are numbers when the determinant does not underflow; the interpolation of normals and texture coordinates is within 19*2^-24 of the exact one. The exact statement is violated: a ray can pass between two triangles that share an edge, and very large triangles behind the ray are hit at the distance NaN. |
| C161 | A sphere has the size the scene gives it | partial | `BigSphere.C161_first_partial`, `BigSphere.C161_enlarged`, `BigSphere.C161_placed_partial`, `BigSphere.C161_enlarged_placed`, `BigSphere.C161_reported`, `BigSphere.C161_violated`, `BigSphere.C161_violated_pole`, `BigSphere.C161_violated_statement` | In exact arithmetic. Proved for rays whose line crosses the sphere or keeps more than s*sqrt(1+s^2/40000) from the centre; violated between: every such ray hits the sphere, in its point next to the centre. The reported normal points from the centre to the hit; the reported point is the hit except at the poles, where it is off by SELF_INTERSECT_ERROR times the radius (2 units for radius 200). |
| C162 | Spheres are hit where they are, in single precision | partial | `FSphere.C162_miss_partial`, `FSphere.C162_numbers`, `FSphere.C162_surface_partial`, `FSphere.C162_touch_partial`, `FSphere.C162_hit_partial`, `FSphere.C162_marker`, `FSphere.C162_violated_far`, `FSphere.C162_violated_statement`, `FSphere.C162_violated_fastmath` | With R a bound on the distance between origin and centre (in radii): a ray with a point more than 360*2^-24*R^2 inside (difference of squared distances) is a hit, before that point unless it starts inside; the reported point of a proper crossing is that close to the surface; lines outside by more than the tolerance are misses; reported distances are finite. The exact statement is violated: a ray through the centre from 3226 radii is a miss. With -Ofast the NaN marker for a missing second solution is not recognised. Not covered: the second solution of a grazing ray whose discriminant is below 400*2^-24*P^2*R^2 is only proved finite. |
| C163 | Microfacet terms and sampled directions are numbers in their ranges, in single precision | partial | `FMicro.C163_roughness`, `FMicro.C163_visible`, `FMicro.C163_shadowing`, `FMicro.C163_density`, `FMicro.C163_sample_partial`, `FMicro.C163_sample_nan`, `FMicro.C163_half`, `FMicro.C163_beckmann_partial`, `FMicro.C163_diffuse`, `FMicro.C163_density_accuracy_partial`, `FMicro.C163_visible_accuracy_partial`, `FMicro.C163_beckmann_accuracy_partial`, `FMicro.C163_density_half_digits`, `FMicro.C163_violated_sample`, `FMicro.C163_violated_statement`, `FMicro.C163_violated_density` | The squared roughness is in [0, 1] for every roughness but NaN; the masking term is in [0, 1] for all inputs; the density is not negative, and NaN exactly if the square of a cosine other than zero underflows; the sampled GGX half vector is made of numbers of length one exactly unless the random number is 1 and the squared roughness at most 2^-25, and then it is NaN (violation: roughness 0.0001). Beckmann sampling needs a squared roughness that does not underflow; the diffuse sampling has no exceptions. Accuracy: the density within 2^-10, the masking term and the Beckmann angle within 24*2^-24 and 8*2^-24, for cosines and roughnesses that do not underflow. Not covered: Blinn, the anisotropic distribution, the values of cosf, sinf and log. |
| C164 | Pixels are developed without undefined behaviour, near the exact mean and independently of the schedule, in single precision | partial | `FFilm.C164_byte`, `FFilm.C164_defined`, `FFilm.C164_level`, `FFilm.C164_monotone`, `FFilm.C164_sum`, `FFilm.C164_count`, `FFilm.C164_mean_partial`, `FFilm.C164_violated_nan`, `FFilm.C164_violated_count`, `FFilm.C164_encode`, `FFilm.C164_colour`, `FFilm.C164_violated_order`, `FFilm.C164_violated_statement` | The conversion to bytes is defined for every binary32 value, NaN and infinities included, monotone and within 2^-16 of 255 times the channel; sums of n contributions are within 2n*2^-24 in every order; the mean before the conversion is within (3n+4)*2^-24 of the weighted mean (colours and weights not negative, products without underflow, sums in the middle of the range, at most 65536 samples); the linear channels are within M*2^-19 of the exact matrix for components up to M, and the encoding is the exact one up to its roundings. Violated: five samples added in the other order give another red byte, and one NaN sample makes its pixels white; at 2^24 samples of weight one the count stalls. Not covered: filters with negative weights (Mitchell, Lanczos), where sums may cancel, and powf. |
| C165 | Samples reach the pixels of the filter support with weights that are numbers, in single precision | partial | `FFilter.C165_centre`, `FFilter.C165_range`, `FFilter.C165_pixels`, `FFilter.C165_offset`, `FFilter.C165_offset_grid`, `FFilter.C165_tent`, `FFilter.C165_gaussian`, `FFilter.C165_mitchell`, `FFilter.C165_lanczos`, `FFilter.C165_weights`, `FFilter.C165_violated_gaussian`, `FFilter.C165_violated_lanczos`, `FFilter.C165_violated_statement` | Positions up to 65536 pixels and integer ranges up to 8: the conversions to int are defined, only pixels in the support are updated, all but the last column and row (C11), and the offsets are numbers in the range of the filter, within (n+1/2)*2^-24 of the exact offset and zero or at least 2^-25. Tent and Gaussian weights of updated pixels are in [0, 1] (falloff not negative, any expf in [0, 1] on arguments that are not positive), Mitchell weights within 2^-10 of the polynomial (b and c in [0, 1]), Lanczos weights are in [-1, 1] for tau in [2^-20, 2^20]. Violated: a negative falloff and tau 0, which the parser accepts, give NaN weights. Not covered: the values of expf and sinf. |
| C166 | Vector and matrix operations may be given the same object twice | partial | `Alias.C166_compound`, `Alias.C166_combine`, `Alias.C166_clamp`, `Alias.C166_extreme`, `Alias.C166_pointExtreme`, `Alias.C166_reflect`, `Alias.C166_mulAssign`, `Alias.C166_inverse`, `Alias.C166_cross_partial`, `Alias.C166_refract_partial`, `Alias.C166_transpose_partial`, `Alias.C166_mul_partial`, `Alias.C166_violated_cross`, `Alias.C166_violated_refract`, `Alias.C166_violated_transpose`, `Alias.C166_violated_mul`, `Alias.C166_violated_statement` | On a memory where references may name the same object: compound assignments, sums, clamping, maximum and minimum, reflection, *= and inverse of matrices are right for all objects, also a op= a and inverse into itself, and change nothing else. Violated by cross(target, output), refract, transpose and mul when the output is an input; they are proved for different objects. The renderer calls none of them with the same object. |
| C167 | Comparisons and bounds of vectors, points and matrices are consistent in single precision | partial | `Compare.C167_negation_partial`, `Compare.C167_negation`, `Compare.C167_normal`, `Compare.C167_matrix`, `Compare.C167_self`, `Compare.C167_symmetric`, `Compare.C167_tolerance`, `Compare.C167_large`, `Compare.C167_clamp`, `Compare.C167_saturate`, `Compare.C167_max`, `Compare.C167_nan`, `Compare.C167_violated_infinity`, `Compare.C167_violated_transitive`, `Compare.C167_violated_statement` | For all binary32 members: != is the negation of == exactly unless a difference is undefined (NaN or equal infinities) and all others small, always for normals and matrices; a vector or point equals itself exactly if it is finite; both operators are symmetric; the tolerance is 2^-23 up to its rounding and means identity beyond two; clamp, saturate, max and min are the exact ones for finite members, and their treatment of NaN is given. Violated: equality is not transitive, and infinite points are neither equal nor unequal to themselves. |
| C168 | Placed objects stay in their boxes and affine maps stay affine in single precision | partial | `FPlace.C168_affine`, `FPlace.C168_accuracy`, `FPlace.C168_sphere_partial`, `FPlace.C168_box`, `FPlace.C168_triangle`, `FPlace.C168_product`, `FPlace.C168_placement`, `FPlace.C168_placed_sphere_partial`, `FPlace.C168_inverse_partial`, `FPlace.C168_scaled_inverse_partial`, `FPlace.C168_inverse_accuracy`, `FPlace.C168_left_inverse`, `FPlace.C168_round_trip_origin`, `FPlace.C168_round_trip_direction`, `FPlace.C168_vector_accuracy`, `FPlace.C168_normal`, `FPlace.C168_placement_accuracy`, `FPlace.C168_placed`, `FPlace.C168_placed_ray`, `FPlace.C168_violated_inverse`, `FPlace.C168_violated_statement`, `FPlace.C168_violated_infinite` | Matrices built from position, rotation and scale have the last row 0 0 0 1 exactly, so no finite point is divided; images are within 5*2^-24 of the sum of the absolute terms; the image of every binary32 point of the unit ball or box is inside the box of the placed shape exactly, rounding included; vertices of triangles are inside exactly, exact inner points up to 21*2^-24 of the size. The inverse has zeros in its last row and numbers elsewhere; for scaled and moved objects its entries are within 8*2^-24. Violated: the last entry of the inverse need not be one (scale 41), so origins of rays are divided by it but not directions; infinite points become NaN. The entries of a placement are within 10*2^-24 of the exact rotation times the scale and its movement is the position exactly; for any affine map with determinant D and entries up to L the inverse is one from both sides up to 160*2^-24*L^3/\|D\|, rays taken to the object and back return up to 1000*2^-24*L^3/\|D\| of their size, and normals keep their products with moved vectors up to 1800*2^-24*L^3/\|D\|; placed objects meet the conditions. Not covered: values of cosf and sinf. |
| C169 | Rough materials have values in single precision | partial | `FRough.C169_oren_constants`, `FRough.C169_oren_partial`, `FRough.C169_fit`, `FRough.C169_fit_above_one`, `FRough.C169_blinn_exponent`, `FRough.C169_sigma_accuracy`, `FRough.C169_oren_accuracy`, `FRough.C169_oren_value_partial`, `FRough.C169_fit_accuracy`, `FRough.C169_blinn_accuracy`, `FRough.C169_blinn_angle_accuracy`, `FRough.C169_blinn_exponent_accuracy`, `FRough.C169_beckmann_accuracy`, `FRough.C169_aniso_accuracy`, `FRough.C169_lambda_accuracy`, `FRough.C169_aniso_g_accuracy`, `FRough.C169_aniso_angle_accuracy`, `FRough.C169_blinn_visible`, `FRough.C169_beckmann_visible`, `FRough.C169_blinn_density`, `FRough.C169_blinn_sample`, `FRough.C169_aniso_sample`, `FRough.C169_aniso_visible`, `FRough.C169_beckmann_density_partial`, `FRough.C169_violated_masking`, `FRough.C169_aniso_density_partial`, `FRough.C169_violated_oren`, `FRough.C169_violated_beckmann`, `FRough.C169_violated_aniso`, `FRough.C169_violated_statement` | In binary32: the constants of Oren-Nayar are in [1/2, 1] and [0, 1/2] and its factor is a number at least A and at most 1 + 1/cosine unless both cosines are below the normal range; the exponent of Blinn is in [0, 100000] also when the squared roughness underflows; shadowing of Blinn and Beckmann is in [0, 1 + 2^-13], of the anisotropic GGX in [0, 1], for all directions; the densities are numbers for cosines of at least 2^-20 (Beckmann), 2^-26 (anisotropic), all (Blinn); sampled half vectors are of unit length up to 13*2^-24 and on the side of the viewer. Violated: Oren-Nayar is NaN for two opposite directions along the surface (0*inf), Beckmann at cosine 2^-40 (0/0), the anisotropic density at 2^-32 (inf*0), and the fit of the shadowing exceeds one. Accuracy, for cosines of at least 2^-12: constants, fit, densities, shadowing and sampled angles are within 4 to 100 times 2^-24 of the exact formulas evaluated at the computed powf and expf. powf, expf and the cosine and sine of the azimuth are any functions with the ranges of the specification. |
| C170 | Frames of hit points and cameras are orthonormal in single precision | partial | `FFrame.C170_shading_frame`, `FFrame.C170_to_world`, `FFrame.C170_to_shading`, `FFrame.C170_world_and_back`, `FFrame.C170_shading_and_back`, `FFrame.C170_side`, `FFrame.C170_camera_frame`, `FFrame.C170_camera_origin`, `FFrame.C170_camera_direction`, `FFrame.C170_ortho_direction`, `FFrame.C170_panorama_direction`, `FFrame.C170_violated_vertical`, `FFrame.C170_violated_statement` | All of the statement is proved in binary32 for every camera whose up vector has an angle to the view with a sine of at least 2^-12. A camera that looks straight along its up vector has no finite ray (C170_violated_vertical). The values of sinf and cosf of the panoramic camera are any numbers with a sum of squares of one up to 1e-6. |
| C171 | Texture lookups with ray differentials in single precision | partial | `FTex.C171_wrap`, `FTex.C171_bilinear`, `FTex.C171_bilinear_range`, `FTex.C171_unfiltered`, `FTex.C171_level`, `FTex.C171_trilinear_iff`, `FTex.C171_trilinear_range`, `FTex.C171_solve`, `FTex.C171_differentials_partial`, `FTex.C171_ewa_sums`, `FTex.C171_ewa`, `FTex.C171_ewa_flat`, `FTex.C171_ewa_weight`, `FTex.C171_ewa_outside`, `FTex.C171_violated_ewa_diagonal`, `FTex.C171_violated_wrap`, `FTex.C171_violated_bilinear`, `FTex.C171_violated_trilinear`, `FTex.C171_violated_ewa`, `FTex.C171_violated_horizon`, `FTex.C171_violated_sharp`, `FTex.C171_violated` | log2f is a parameter with three assumptions (Log2Spec). Lookups of one texel and between texels are proved for all coordinates in [0,1] and sides up to 32768; lookups between levels for all differentials, also infinities and NaN. The code violates the property: a neighbouring ray parallel to the surface makes the differentials NaN while they are flagged as known, and the elliptical lookup then converts NaN to an integer; footprints near one read a level that does not exist; a white texture is read as 254. Elliptical lookups: the sums over up to 2^14 texels stay between the least and the greatest texel up to one, and the lookup is defined exactly if the total weight is positive; diagonal footprints such as (1,2),(1,0) in texels make it undefined on every level. Missing: a condition on footprints for a positive total weight in binary32 (exact arithmetic: C46). |
| C172 | Points and directions sampled on lights in single precision | partial | `FLight.C172_box`, `FLight.C172_box_densities`, `FLight.C172_mesh`, `FLight.C172_mesh_densities`, `FLight.C172_triangle`, `FLight.C172_sphere`, `FLight.C172_violated_box`, `FLight.C172_violated_hang`, `FLight.C172_violated_absorbed`, `FLight.C172_violated_single`, `FLight.C172_violated_outside`, `FLight.C172_violated_search`, `FLight.C172_violated` | Points sampled on boxes, meshes, triangles and spheres with the roundings of binary32. cosf and sinf are two numbers whose squares add up to one up to a given error. Proved for every random number below one (boxes, meshes) and for all random numbers (triangles, spheres); surfaces of boxes within 12 2^-24, cumulative surfaces of meshes within one rounding per triangle. The code violates the property for the random number one if the surface of the last face is lost in the sum: the point of a box is not a number and the search of a mesh is endless; small triangles beside a large one are never chosen; points of triangles can be beside the triangle by a rounding. |
| C173 | Boxes are hit where they are in single precision | partial | `FBox.C173_hit`, `FBox.C173_outside`, `FBox.C173_inside`, `FBox.C173_frame`, `FBox.C173_violated_plane`, `FBox.C173_violated_plane_one`, `FBox.C173_violated` | Box::intersect with the roundings, infinities and NaN of binary32, for an object without mask. Proved for all origins up to 2^60 and directions with components that are zero or of a size from 2^-60 to 2, unless a component is zero and the origin is in the plane of a face; the frame of the hit for all numbers. The code violates the property for rays in the plane of a face: 0 times infinity is NaN, and every ray in the plane x = 0 is reported to hit the box when it leaves the other slabs in front of the origin, wherever it passes. Hits from inside take the normal of the axis of entry (C64). |
| C174 | The frame of a hit on a placed object is made of unit vectors at the right angles, in single precision | partial | `FAsset.C174_tangent`, `FAsset.C174_normal`, `FAsset.C174_angle`, `FAsset.C174_side`, `FAsset.C174_tangent_turned`, `FAsset.C174_normal_turned`, `FAsset.C174_side_turned`, `FAsset.C174_shape`, `FAsset.C174_box_partial`, `FAsset.C174_violated_box`, `FAsset.C174_violated` | What Asset::intersect does with the hit of a shape, with the roundings of binary32. Proved for placements that scale and move, and with a bound of 2^-15 for turned ones whose rows do not cancel by more than a factor of eight. The code violates the property for boxes: Box::intersect never writes dpdv, which is the zero vector of a new HitPoint and NaN after normalize(). |
| C175 | The areas of placed lights and the densities made of them are right in single precision | partial | `FArea.C175_scale`, `FArea.C175_sphere`, `FArea.C175_box`, `FArea.C175_sphere_density`, `FArea.C175_box_density`, `FArea.C175_density`, `FArea.C175_triangle`, `FArea.C175_triangle_placed`, `FArea.C175_corner`, `FArea.C175_violated_large`, `FArea.C175_violated_small`, `FArea.C175_violated` | Areas of spheres and boxes and the densities in area_light.cpp with the roundings of binary32. A sphere is taken to have its first size in all directions, as in the code. The point found on the light comes from the intersection and is given by its distance (Sight); grazing angles (cosine below 2^-8) and observers far from the origin of the light are left out. Violated by lights of the size 2^64 or 2^-80.. |
| C176 | The direct light of a point is weighted right in single precision | proved | `Direct.C176_light`, `Direct.C176_material`, `Direct.C176_material_unseen`, `Direct.C176_material_black`, `Direct.C176_both`, `Direct.C176_visible` | One channel of the spectra; is_black of all three channels is simplified to that channel, as in Direct.lean. The values of the material and its density are given numbers; occlusion is not part of it. Densities outside of the range overflow: C150. |
| C177 | The radiance of a path is a finite, bounded number in single precision and near the exact sum | proved | `FPath.C177_bounded`, `FPath.C177_vertices`, `FPath.C177_near`, `FPath.C177_roulette` | path_tracer.cpp with the three channels of the colour build and the roundings of binary32. A path is given by what l_rec meets at its vertices; direct light is that of C176. Nearness is stated before the roulette sets in and for bright paths through it; a path with a luminance below one half at the fifth vertex is only bounded. What the roulette does to the expected value is the matter of C34. |
| C178 | The choice of a light or of a part of a material is in range in single precision | proved | `FChoice.C178_light`, `FChoice.C178_part`, `FChoice.C178_inexact` | The binary32 counterpart of C35. C178_inexact shows that the allowance of 2^-23 is needed: of six lights the last one is chosen for a number below 5/6. |
| C179 | Samples are placed in their pixel and stratum in single precision | proved | `FSampler.C179_random`, `FSampler.C179_stratum`, `FSampler.C179_end` | One coordinate; which pixels and strata are visited is the matter of C07 and C08. C179_end: the right end of the pixel, which belongs to the next one, is reached by random numbers below one, already in the pixel 1. |

## Appendix: axioms per theorem

Names are below `Spectre.`; P = propext, C = Classical.choice, Q = Quot.sound.

* P: `AABB.C24_engulf_point`, `Config.C51_square`, `Lib.C54_violated`, `Lib.C54_dangling_map`, `Lib.C54_maps_partial`, `Obj.C60_violated`, `Obj.C79_partial`, `Scene.C120_unique`, `Scene.C120_whole`, `Scene.C127_mask_partial`, `Scene.C128_token_read`, `Queue.C137_listener_races_violated`, `Memory.C139_violated`, `Memory.C139_violated_finalized`, `Single.C148_dual_consistent`
* Q P: `Array2D.C02_not_all_sides`, `Well.C03_step_bijective`, `Well.C03_orbits_never_merge`, `Well.C03_no_tail`, `Well.C04_zero_seed`, `Well.C05_one_iff`, `Well.C05_zero_iff`, `Tiles.C06_bad_width`, `KdNode.C12_internal_round_trip`, `KdNode.C12_leaf_round_trip`, `KdNode.C12_injective`, `KdNode.C12_bound_sharp`, `KdTree.C13_every_asset_reachable`, `KdTree.C13_no_foreign_asset`, `KdTree.C13_child_buffers`, `KdTree.C13_sah_split_inside`, `KdTree.C15_height_bound`, `Morton.C18_top_bit`, `Bvh.C19_bisect_boundary`, `AABB.C24_engulf_contains`, `AABB.C24_engulf_least`, `AABB.C24_comm`, `AABB.C24_assoc`, `AABB.C24_idem`, `AABB.C24_empty_left`, `AABB.C24_order_independent`, `AABB.C24_fold_contains`, `AABB.C25_models_agree`, `Bsdf.C32_same_texture_partial`, `Bsdf.C32_same_texture_spec_partial`, `Bsdf.C32_single_layer_partial`, `Bsdf.C33_violated_add`, `Bsdf.C33_empty_nospec_partial`, `Integrator.C36_indirect_partial`, `Bmp.C39_reader_violated`, `Tga.C40_violated`, `Tga.C40_wide_truncated`, `Tga.C41_violated`, `Img.C44_rgb_round_trip`, `Img.C44_partial_pixel`, `Img.C44_swap32_bytes`, `Img.C44_swap16_bytes`, `Img.C44_swap32_involutive`, `Img.C44_swap16_involutive`, `Img.C44_big32`, `Img.C44_big16_violated`, `Img.C44_big16_iff`, `Path.C48_short_name`, `Path.C49_absolute`, `Path.C49_top`, `Path.C49_violated`, `Path.C50_objects_partial`, `Lib.C53_library`, `Lib.C53_no_dangling`, `Lib.C54_ownership_partial`, `Lib.C55_lights`, `Lib.C55_once_partial`, `Lib.C55_violated`, `Lib.C55_dropped`, `Obj.C56_token_spec`, `Obj.C56_tokens`, `Obj.C58_in_range`, `Obj.C58_violated`, `Obj.C60_reachable`, `Config.C62_lattice`, `Bmp.C67_safe_partial`, `Bmp.C67_zero_height`, `Tex.C72_violated`, `Obj.C78_partial`, `Obj.C78_stale`, `KdTree.C94_halves`, `Scene.C127_complete`, `Scene.C129_marks`, `Msg.C130_printf`, `Msg.C130_fits`, `Msg.C130_numbers`, `Msg.C130_missing`, `Msg.C130_invalid`, `Msg.C130_calls_partial`, `Msg.C130_violated_folder`, `Msg.C130_violated_child`, `Msg.C130_violated_error`, `ImageIo.C132_tiff_grey`, `ImageIo.C134_violated_grey`, `ImageIo.C134_violated`, `ImageIo.C134_violated_cmyk`, `ImageIo.C134_png_signature_partial`, `ImageIo.C134_violated_png_short`, `Queue.C137_mutual_exclusion`, `Queue.C137_never_pops_empty`, `Queue.C137_each_job_once`, `Queue.C137_one_worker`, `Queue.C137_all_done`, `Queue.C138_debug_not_zero`, `Queue.C138_first_not_zero`, `Queue.C138_jobs_differ`, `Queue.C138_release_violated`, `Queue.C138_workers_coincide_violated`, `Memory.C140_duplicates`, `Memory.C140_nothing_left_partial`, `Memory.C140_violated_sphere`, `Memory.C140_violated_duplicate`, `Memory.C140_violated_lights`, `Fsys.C144_none`, `Fsys.C144_violated`, `Fsys.C145_assign_partial`, `Fsys.C145_destroy`, `Fsys.C145_copy`, `Fsys.C145_violated_leak`, `Fsys.C145_violated_self`, `Single.C148_layered`, `Single.C148_specular`, `Alias.C166_compound`, `Alias.C166_combine`, `Alias.C166_clamp`, `Alias.C166_extreme`, `Alias.C166_pointExtreme`, `Alias.C166_inverse`, `Alias.C166_transpose_partial`, `Compare.C167_normal`, `Compare.C167_nan`
* none: `Single.C148_dual`
* C Q P: `Array2D.C01_array2d_matrix`, `Array2D.C01_array2d_from_values`, `Array2D.C01_array2d_zero_out`, `Array2D.C01_array2d_copy`, `Array2D.C02_zero_out_wraps`, `Array2D.C02_sides_partial`, `Well.C04_never_dies`, `Well.C04_nonzero_in_32`, `Well.C04_sharp`, `Well.C05_range`, `Tiles.C06_tiles_partition`, `Tiles.C06_tiles_nonempty`, `Sampler.C07_random`, `Sampler.C07_stratified`, `Sampler.C07_empty_window_never_stops`, `Sampler.C08_one_sample_per_stratum`, `Sampler.C08_float_strata`, `Sampler.C08_non_square_stale`, `Film.C09_no_loss`, `Film.C09_running_total`, `Film.C09_no_deadlock`, `Film.C09_terminates`, `Film.C09_completes`, `Film.C10_border_partial`, `Film.C10_violated`, `Film.C10_violated_drain`, `Film.C11_updated_iff`, `Film.C11_support_partial`, `Film.C11_violated`, `Film.C11_box_sample_lost`, `Film.C11_tent_weight_lost`, `KdTree.C13_flatten_repr`, `KdTree.C13_flat_asset_lost`, `KdTree.C14_closest_hit_partial`, `KdTree.C14_violated_face_plane`, `KdTree.C15_stack_never_overflows`, `KdTree.C16_violated`, `KdTree.C16_safe_iff`, `KdTree.C16_within_limit_partial`, `KdTree.C17_violated`, `KdTree.C17_first_build_partial`, `Morton.C18_interleave`, `Morton.C18_injective`, `Morton.C18_pdep_agrees`, `Morton.C18_grid_range`, `Morton.C18_flat_mesh_undefined`, `Bvh.C19_build_partitions`, `Bvh.C20_find_best`, `Bvh.C20_combine_cluster`, `Bvh.C20_round_merges_closest_pair`, `Bvh.C21_flatten_repr`, `Bvh.C21_terminates`, `Bvh.C21_equals_brute_force`, `Bvh.C21_mesh_closest_hit`, `Bvh.C22_violated`, `Bvh.C22_height_partial`, `Bvh.C22_small_mesh_partial`, `Bvh.C23_violated`, `Bvh.C23_unmoved_partial`, `AABB.C24_inside_iff`, `AABB.C24_surface_mono`, `AABB.C24_longest_axis`, `AABB.C24_eqOp_not_equality`, `AABB.C25_interval_exact`, `AABB.C25_reject_sound`, `AABB.C25_accepts_iff`, `AABB.C25_overloads_agree`, `AABB.C25_behind_accepted`, `AABB.C25_general_direction`, `AABB.C25_face_plane_nan`, `Geom.C26_det`, `Geom.C26_success_iff`, `Geom.C26_two_sided`, `Geom.C26_transpose`, `Geom.C26_is_matrix_inverse`, `Geom.C26_inverse_affine`, `Geom.C26_round_trip`, `Geom.C26_normal_orthogonal`, `Geom.C26_small_scale_rejected`, `Geom.C27_corners_contain`, `Geom.C27_sphere`, `Geom.C27_box`, `Geom.C27_triangle`, `Geom.C27_mesh`, `Geom.C28_exact`, `Geom.C28_miss`, `Geom.C28_unique`, `Shapes.C29_triangle`, `Shapes.C29_box`, `Shapes.C29_sphere_violated`, `Shapes.C29_sphere_partial`, `Shapes.C29_sphere_unmasked_partial`, `Shapes.C29_sphere_on_surface`, `Shapes.C30_violated`, `Shapes.C30_choice_partial`, `Shapes.C30_penultimate_lost`, `Shapes.C30_hang`, `Shapes.C30_single_out_of_bounds`, `Shapes.C30_point_in_triangle`, `Shapes.C31_densities`, `Shapes.C31_surface`, `Shapes.C31_face`, `Shapes.C31_covers`, `Shapes.C31_one`, `Bsdf.C32_violated`, `Bsdf.C32_violated_index`, `Bsdf.C32_single_brdf`, `Bsdf.C33_violated_empty`, `Bsdf.C33_partial`, `Integrator.C34_expected_value`, `Integrator.C34_violated`, `Integrator.C34_weight`, `Integrator.C34_short_paths_partial`, `Integrator.C34_factor`, `Integrator.C35_in_range`, `Integrator.C35_uniform`, `Integrator.C35_expected`, `Integrator.C35_violated`, `Integrator.C35_iff_partial`, `Integrator.C36_violated_always`, `Integrator.C36_violated`, `Integrator.C37_cache_transparent`, `Integrator.C37_history_independent`, `Bmp.C38_round_trip`, `Bmp.C39_iff`, `Bmp.C39_rows_iff`, `Bmp.C39_violated`, `Bmp.C39_even_partial`, `Tga.C40_partial`, `Tga.C41_decodes_partial`, `Tga.C41_in_bounds_partial`, `Tga.C41_bounds_iff`, `Tga.C41_violated_bounds`, `Tga.C41_violated_overflow`, `Ppm.C42_round_trip`, `Ppm.C43_violated`, `Ppm.C43_binary_always_undefined`, `Ppm.C43_clamped_always_one`, `Ppm.C43_at_maximum_partial`, `Img.C44_bgra_round_trip`, `Tex.C45_levels`, `Tex.C45_mean`, `Tex.C45_block`, `Tex.C45_uniform`, `Tex.C45_arrays`, `Tex.C46_unfiltered`, `Tex.C46_bilinear`, `Tex.C46_trilinear_level_iff`, `Tex.C46_trilinear_iff`, `Tex.C46_violated`, `Tex.C46_trilinear_partial`, `Tex.C46_ewa_last_level`, `Tex.C46_ewa_one_texel`, `Tex.C46_ewa_indefinite`, `Tex.C46_ewa_negative_texel`, `Tex.C46_ewa_nan`, `Tex.C46_ewa_level`, `Tex.C46_ewa_partial`, `Tex.C47_iff`, `Tex.C47_violated`, `Tex.C47_wrap_partial`, `Tex.C47_negative_lookup`, `Path.C48_absolute_partial`, `Path.C48_append_partial`, `Path.C48_violated`, `Path.C48_root_violated`, `Path.C48_relative_violated`, `Path.C49_name_partial`, `Path.mkObj_denotes`, `Path.C50_children_partial`, `Path.C50_violated`, `Config.C51_kept`, `Config.C51_near_partial`, `Config.C51_distance_partial`, `Config.C51_violated`, `Config.C51_overflow_iff`, `Config.toF32_eq_fl`, `Config.C52_partial`, `Config.C52_defined_partial`, `Config.C52_violated`, `Obj.C56_file`, `Obj.C57_partial`, `Obj.C57_no_fuel`, `Obj.C57_violated`, `Obj.C58_fetch`, `Obj.C58_corner_partial`, `Obj.C58_violated_wrap`, `Obj.C59_fan`, `Obj.C59_count`, `Obj.C59_boundary`, `Obj.C59_line`, `Obj.C59_violated_short`, `Obj.C60_compact`, `Obj.C60_faithful`, `Obj.C60_violated_reset`, `Config.C61_format`, `Config.C62_clamp`, `Config.C62_lerp`, `Config.C62_lerp_range`, `Config.C62_equation1`, `Config.C62_equation2_partial`, `Config.C62_equation2_violated`, `Asset.C63_world_space_partial`, `Asset.C63_normal`, `Asset.C63_violated`, `Asset.C63_triangle`, `Asset.C63_box_hit`, `Shapes.C64_violated`, `Shapes.C64_hit_partial`, `Shapes.C64_miss`, `Asset.C65_tangents`, `Bsdf.C66_pdf`, `Bmp.C67_decodes`, `Bmp.C67_stride`, `Ppm.C68_sample8`, `Ppm.C68_sampleText`, `Ppm.C68_sampleText_wide`, `Ppm.C68_deep_maximum`, `Ppm.C68_violated_deep`, `Ppm.C68_binary_partial`, `Ppm.C68_text_partial`, `Ppm.C68_violated_comment`, `Ppm.C69_in_bounds`, `Tex.C70_centre`, `Tex.C70_repeated_partial`, `Tex.C70_seam_violated`, `Tex.C71_bilinear`, `Tex.C71_trilinear_partial`, `Tex.C71_violated`, `Tex.C72_iff`, `Tex.C72_accepted_partial`, `Tex.C73_mask`, `Tex.C74_iff`, `Tex.C74_violated`, `Tex.C74_uniform_scale_partial`, `Path.C75_extension`, `Config.C76_aspect`, `Config.C77_nearest`, `Obj.C78_violated`, `Obj.C79_violated`, `AABB.C80_surface`, `AABB.C80_volume`, `AABB.C80_volume_split`, `AABB.C80_center`, `Filters.C81_box_partial`, `Filters.C81_tent_partial`, `Filters.C81_gaussian_partial`, `Filters.C81_mitchell_partial`, `Filters.C81_lanczos_partial`, `Filters.C81_lanczos_defined`, `Filters.C81_violated_mitchell`, `Filters.C81_violated_default`, `Filters.C81_violated_lanczos`, `Filters.C81_violated_lanczos_nan`, `Filters.C82_symmetric`, `Filters.C82_symmetric_lanczos`, `Filters.C82_border`, `Filters.C82_border_lanczos`, `Filters.C82_outside_lanczos`, `Filters.C82_mitchell_continuous`, `Filters.C82_mitchell_unity`, `Filters.C82_tent_constant`, `Specular.C83_conductor_partial`, `Specular.C83_violated_conductor`, `Specular.C83_dielectric`, `Specular.C83_reciprocal`, `Specular.C84_conductor_partial`, `Specular.C84_violated_conductor`, `Specular.C84_dielectric_partial`, `Specular.C84_violated_total`, `Specular.C85_refraction`, `Specular.C85_reversible`, `Specular.C85_energy`, `Specular.C86_direction`, `Specular.C86_pdf_agrees_partial`, `Specular.C86_violated_grazing`, `Specular.C86_density`, `Specular.C86_lambertian`, `Specular.C87_reflect`, `Specular.C87_refract_partial`, `Specular.C87_violated_behind`, `Microfacet.C88_ggx_partial`, `Microfacet.C88_blinn_partial`, `Microfacet.C88_violated_beckmann`, `Microfacet.C88_aniso`, `Microfacet.C89_ggx_partial`, `Microfacet.C89_violated_blinn`, `Microfacet.C89_violated_beckmann`, `Microfacet.C89_aniso_rate`, `Microfacet.C89_aniso`, `Microfacet.C90_ggx_partial`, `Microfacet.C90_violated_ggx`, `Microfacet.C90_fit_partial`, `Microfacet.C90_violated_beckmann`, `Microfacet.C90_aniso_partial`, `Microfacet.C90_violated_aniso`, `Microfacet.C90_smith_aniso_partial`, `Microfacet.C90_blinn_beckmann`, `Microfacet.C90_normal`, `Microfacet.C91_reciprocal`, `Microfacet.C91_symmetric_masking`, `Microfacet.C91_sample_partial`, `Microfacet.C91_violated_grazing`, `Microfacet.C92_pdf_agrees_partial`, `Microfacet.C92_violated_blinn`, `Microfacet.C92_violated_jacobian`, `Microfacet.C93_isotropic_partial`, `Microfacet.C93_violated_normal`, `Microfacet.C93_constructed_partial`, `KdTree.C94_cheapest_partial`, `KdTree.C94_violated_never_refused`, `KdTree.C94_violated_axis`, `Microfacet.C95_blinn`, `Microfacet.C95_beckmann`, `Microfacet.C95_ggx`, `Microfacet.C95_aniso`, `Microfacet.C96_walter`, `Microfacet.C96_reciprocal`, `Microfacet.C96_dielectric`, `Microfacet.C96_nonneg`, `Microfacet.C96_violated_backfacing`, `OrenNayar.C97_coefficients`, `OrenNayar.C97_monotone`, `OrenNayar.C97_defined`, `OrenNayar.C97_symmetric`, `OrenNayar.C97_lower`, `OrenNayar.C97_smooth`, `OrenNayar.C97_model_partial`, `OrenNayar.C97_brighter_partial`, `OrenNayar.C97_violated_azimuth`, `OrenNayar.C97_published`, `Frame.C98_frame_partial`, `Frame.C98_round_trip`, `Frame.C98_violated_skewed`, `Frame.C98_violated_smooth`, `Frame.C98_undefined`, `Frame.C98_asset_partial`, `Frame.C99_height`, `Frame.C99_height_handed`, `Frame.C99_height_tilt`, `Frame.C99_uniform`, `Frame.C99_height_flat`, `Frame.C99_violated_scale`, `Frame.C99_normal`, `Frame.C99_normal_tilt`, `Frame.C99_violated_flat`, `Frame.C99_violated_sides`, `Frame.C99_gradient`, `Frame.C99_texel`, `Frame.C100_plane`, `Frame.C100_coordinates_partial`, `Frame.C100_accepted`, `Frame.C100_violated_smooth`, `Frame.C100_violated_units`, `Camera.C101_frame`, `Camera.C101_rigid`, `Camera.C101_undefined`, `Camera.C102_ray`, `Camera.C102_centre`, `Camera.C102_neighbours`, `Camera.C102_two_pixels_partial`, `Camera.C102_violated_offset`, `Camera.C103_ray`, `Camera.C103_neighbours`, `Camera.C103_angle`, `Camera.C103_upright_partial`, `Camera.C103_undefined`, `Camera.C103_violated_degrees`, `Camera.C104_ray`, `Camera.C104_covers`, `Camera.C104_injective`, `Camera.C104_poles`, `Camera.C104_violated_centre`, `Camera.C104_neighbours`, `Light.C105_parametrisation`, `Light.C105_unique`, `Light.C105_frame`, `Light.C105_hit`, `Light.C105_violated_pole`, `Light.C106_sample`, `Light.C106_uniform`, `Light.C106_sphere_partial`, `Light.C106_sphere_placed`, `Light.C106_violated_sphere`, `Light.C106_triangle_partial`, `Light.C106_triangle_placed`, `Light.C106_violated_shear`, `Light.C106_box_placed`, `Light.C107_sample`, `Light.C107_pdf`, `Light.C107_rigid_partial`, `Light.C107_sphere_proper`, `Light.C107_violated_scaled`, `Light.C107_emitted`, `Light.C107_violated_emitted`, `Light.C107_emitted_density`, `Light.C108_reported`, `Light.C108_direction`, `Light.C108_actual`, `Light.C108_violated`, `Light.C109_test`, `Light.C109_rigid_partial`, `Light.C109_violated_dark`, `Light.C109_violated_missed`, `Light.C110_once_partial`, `Light.C110_unseen`, `Light.C110_violated_scaled`, `Light.C110_violated_sphere`, `Color.C111_decode`, `Color.C111_round_trip_partial`, `Color.C111_gap`, `Color.C111_violated_increasing`, `Color.C111_increasing_partial`, `Color.C112_byte`, `Color.C112_pixel_partial`, `Color.C112_violated_grey`, `Color.C113_level`, `Color.C113_channels`, `Color.C113_mean`, `Color.C113_empty`, `Color.C114_normalised`, `Color.C114_black`, `Color.C114_error_partial`, `Color.C114_violated`, `Color.C114_violated_amount`, `Color.C115_luminance`, `Color.C115_linear`, `Color.C115_constant_partial`, `Color.C115_violated_red`, `Color.C116_orders`, `Color.C116_range`, `Color.C116_grey`, `Color.C116_plain`, `Color.C116_violated_coding`, `Color.C117_cauchy`, `Color.C117_sellmeier_partial`, `Color.C117_violated_sellmeier`, `Color.C118_defined_partial`, `Color.C118_undefined`, `Color.C118_violated`, `Scene.C119_terminates`, `Scene.C119_accepts_iff`, `Scene.C119_rejects`, `Scene.C119_no_undefined_behaviour`, `Scene.C119_unambiguous`, `Scene.C120_end`, `Scene.C120_token`, `Scene.C120_exactly`, `Scene.C120_all`, `Scene.C121_separated_partial`, `Scene.C121_closed`, `Scene.C121_spaced_partial`, `Scene.C121_violated_backslash`, `Scene.C121_violated_quote`, `Scene.C121_violated_documented`, `Scene.C122_meaning`, `Scene.C122_rejected`, `Scene.C122_defaults`, `Scene.C122_concatenation`, `Scene.C122_text`, `Scene.C122_text_defined`, `Scene.C122_violated_documented`, `Scene.C123_uint`, `Scene.C123_int`, `Scene.C123_float`, `Scene.C123_unique`, `Scene.C123_undefined`, `Scene.C123_violated`, `Scene.C124_chain`, `Scene.C124_objects`, `Scene.C124_settings_partial`, `Scene.C124_checked`, `Scene.C124_violated`, `Scene.C125_library`, `Scene.C125_filter_partial`, `Scene.C125_reference_partial`, `Scene.C125_violated_reference`, `Scene.C125_violated_filter`, `Scene.C126_metal`, `Scene.C126_glass`, `Scene.C126_glossy`, `Scene.C126_matte`, `Scene.C126_blinn`, `Scene.C126_parameters`, `Scene.C126_library`, `Scene.C126_dual`, `Scene.C126_violated_blinn`, `Scene.C127_objects`, `Scene.C127_radians`, `Scene.C127_degrees_partial`, `Scene.C127_violated_degrees`, `Scene.C127_violated_mask`, `Scene.C128_first`, `Scene.C128_none`, `Scene.C128_rejects`, `Scene.C128_driver`, `Scene.C129_position_partial`, `Scene.C129_report_partial`, `Scene.C129_end_partial`, `Scene.C129_violated_long`, `Scene.C129_violated_last_line`, `Scene.C129_violated_second_file`, `Scene.C129_violated_bump`, `Scene.C129_violated_lines`, `Msg.C130_buffers`, `ImageIo.C131_dispatch`, `ImageIo.C131_dimensions_partial`, `ImageIo.C131_iff`, `ImageIo.C131_violated`, `ImageIo.C132_png_rows`, `ImageIo.C132_png_read`, `ImageIo.C132_png_round_trip`, `ImageIo.C132_tiff_round_trip`, `ImageIo.C132_tiff_alpha`, `ImageIo.C132_jpg_rows`, `ImageIo.C133_failure`, `ImageIo.C133_reported_partial`, `ImageIo.C133_violated`, `ImageIo.C134_colour_partial`, `ImageIo.C135_film`, `ImageIo.C135_saved_partial`, `ImageIo.C135_names`, `ImageIo.C135_names_absolute`, `ImageIo.C135_violated`, `Queue.C136_bar`, `Queue.C136_monotone`, `Queue.C136_full_iff`, `Queue.C136_percent_accurate`, `Queue.C136_eta_partial`, `Queue.C136_eta_violated`, `Queue.C137_terminates`, `Queue.C137_flag_races_violated`, `Queue.C138_zero_iff`, `Memory.C139_stored_partial`, `Memory.C139_finalized_partial`, `Memory.C140_ownership`, `MaskHit.C141_plain_partial`, `MaskHit.C141_secondary`, `MaskHit.C141_point`, `MaskHit.C141_refused`, `MaskHit.C141_violated_uninitialised`, `MaskHit.C141_violated_stale`, `MaskHit.C141_violated_dv`, `Fsys.C142_mkdirs`, `Fsys.C142_all_or_nothing`, `Fsys.C142_existing`, `Fsys.C143_known`, `Fsys.C143_append`, `Fsys.C143_parent_partial`, `Fsys.C143_violated_parent`, `Fsys.C144_ls_partial`, `Well.C146_period`, `Well.C146_one_cycle`, `Well.C146_state`, `Well.C147_tuples`, `Well.C147_words`, `Well.C147_events`, `Well.C147_values`, `Well.C147_one`, `Well.C147_blocks`, `Single.C148_agrees_partial`, `Single.C148_violated_bump`, `Single.C148_construct`, `Direct.C149_hidden`, `Direct.C149_used`, `Direct.C149_back`, `Direct.C150_nan_iff`, `Direct.C150_range_partial`, `Direct.C150_sum_partial`, `Direct.C150_violated_large`, `Direct.C150_violated_small`, `Direct.C150_violated_radiance`, `FTree.C151_contains`, `FTree.C151_no_gap`, `FTree.C151_backward`, `FTree.C151_margin_partial`, `FTree.C151_violated_edge`, `FTree.C151_violated_face`, `FTree.C152_completes`, `FTree.C152_no_asset_lost`, `FTree.C152_closest_hit`, `FBvh.C153_build_partial`, `FBvh.C153_lost`, `FBvh.C153_violated_overflow`, `FBvh.C154_mesh_closest_hit`, `Metals.C155_table`, `Metals.C155_fraction`, `Metals.C155_spectral_partial`, `Metals.C155_violated_gold`, `Normalize.C156_unit_partial`, `Normalize.C156_stable_partial`, `Normalize.C156_violated_large`, `Normalize.C156_violated_small`, `Normalize.C156_violated_subnormal`, `FMat.C157_dielectric`, `FMat.C157_reflection_partial`, `FMat.C157_metal`, `FMat.C157_metals`, `FMat.C157_violated_grazing`, `FMat.C157_violated_behind`, `FMat.C158_refraction`, `Run.C159_picture`, `Run.C159_status_partial`, `Run.C159_refused`, `Run.C159_violated`, `Run.C159_violated_statement`, `FTri.C160_hit_partial`, `FTri.C160_miss_partial`, `FTri.C160_numbers`, `FTri.C160_interpolated`, `FTri.C160_violated_crack`, `FTri.C160_violated_nan`, `FTri.C160_violated_statement`, `BigSphere.C161_first_partial`, `BigSphere.C161_enlarged`, `BigSphere.C161_placed_partial`, `BigSphere.C161_enlarged_placed`, `BigSphere.C161_reported`, `BigSphere.C161_violated`, `BigSphere.C161_violated_pole`, `BigSphere.C161_violated_statement`, `FSphere.C162_miss_partial`, `FSphere.C162_numbers`, `FSphere.C162_surface_partial`, `FSphere.C162_touch_partial`, `FSphere.C162_hit_partial`, `FSphere.C162_marker`, `FSphere.C162_violated_far`, `FSphere.C162_violated_statement`, `FSphere.C162_violated_fastmath`, `FMicro.C163_roughness`, `FMicro.C163_visible`, `FMicro.C163_shadowing`, `FMicro.C163_density`, `FMicro.C163_sample_partial`, `FMicro.C163_sample_nan`, `FMicro.C163_half`, `FMicro.C163_beckmann_partial`, `FMicro.C163_diffuse`, `FMicro.C163_density_accuracy_partial`, `FMicro.C163_visible_accuracy_partial`, `FMicro.C163_beckmann_accuracy_partial`, `FMicro.C163_density_half_digits`, `FMicro.C163_violated_sample`, `FMicro.C163_violated_statement`, `FMicro.C163_violated_density`, `FFilm.C164_byte`, `FFilm.C164_defined`, `FFilm.C164_level`, `FFilm.C164_monotone`, `FFilm.C164_sum`, `FFilm.C164_count`, `FFilm.C164_mean_partial`, `FFilm.C164_violated_nan`, `FFilm.C164_violated_count`, `FFilm.C164_encode`, `FFilm.C164_colour`, `FFilm.C164_violated_order`, `FFilm.C164_violated_statement`, `FFilter.C165_centre`, `FFilter.C165_range`, `FFilter.C165_pixels`, `FFilter.C165_offset`, `FFilter.C165_offset_grid`, `FFilter.C165_tent`, `FFilter.C165_gaussian`, `FFilter.C165_mitchell`, `FFilter.C165_lanczos`, `FFilter.C165_weights`, `FFilter.C165_violated_gaussian`, `FFilter.C165_violated_lanczos`, `FFilter.C165_violated_statement`, `Alias.C166_reflect`, `Alias.C166_mulAssign`, `Alias.C166_cross_partial`, `Alias.C166_refract_partial`, `Alias.C166_mul_partial`, `Alias.C166_violated_cross`, `Alias.C166_violated_refract`, `Alias.C166_violated_transpose`, `Alias.C166_violated_mul`, `Alias.C166_violated_statement`, `Compare.C167_negation_partial`, `Compare.C167_negation`, `Compare.C167_matrix`, `Compare.C167_self`, `Compare.C167_symmetric`, `Compare.C167_tolerance`, `Compare.C167_large`, `Compare.C167_clamp`, `Compare.C167_saturate`, `Compare.C167_max`, `Compare.C167_violated_infinity`, `Compare.C167_violated_transitive`, `Compare.C167_violated_statement`, `FPlace.C168_affine`, `FPlace.C168_accuracy`, `FPlace.C168_sphere_partial`, `FPlace.C168_box`, `FPlace.C168_triangle`, `FPlace.C168_product`, `FPlace.C168_placement`, `FPlace.C168_placed_sphere_partial`, `FPlace.C168_inverse_partial`, `FPlace.C168_scaled_inverse_partial`, `FPlace.C168_inverse_accuracy`, `FPlace.C168_left_inverse`, `FPlace.C168_round_trip_origin`, `FPlace.C168_round_trip_direction`, `FPlace.C168_vector_accuracy`, `FPlace.C168_normal`, `FPlace.C168_placement_accuracy`, `FPlace.C168_placed`, `FPlace.C168_placed_ray`, `FPlace.C168_violated_inverse`, `FPlace.C168_violated_statement`, `FPlace.C168_violated_infinite`, `FRough.C169_oren_constants`, `FRough.C169_oren_partial`, `FRough.C169_fit`, `FRough.C169_fit_above_one`, `FRough.C169_blinn_exponent`, `FRough.C169_sigma_accuracy`, `FRough.C169_oren_accuracy`, `FRough.C169_oren_value_partial`, `FRough.C169_fit_accuracy`, `FRough.C169_blinn_accuracy`, `FRough.C169_blinn_angle_accuracy`, `FRough.C169_blinn_exponent_accuracy`, `FRough.C169_beckmann_accuracy`, `FRough.C169_aniso_accuracy`, `FRough.C169_lambda_accuracy`, `FRough.C169_aniso_g_accuracy`, `FRough.C169_aniso_angle_accuracy`, `FRough.C169_blinn_visible`, `FRough.C169_beckmann_visible`, `FRough.C169_blinn_density`, `FRough.C169_blinn_sample`, `FRough.C169_aniso_sample`, `FRough.C169_aniso_visible`, `FRough.C169_beckmann_density_partial`, `FRough.C169_violated_masking`, `FRough.C169_aniso_density_partial`, `FRough.C169_violated_oren`, `FRough.C169_violated_beckmann`, `FRough.C169_violated_aniso`, `FRough.C169_violated_statement`, `FFrame.C170_shading_frame`, `FFrame.C170_to_world`, `FFrame.C170_to_shading`, `FFrame.C170_world_and_back`, `FFrame.C170_shading_and_back`, `FFrame.C170_side`, `FFrame.C170_camera_frame`, `FFrame.C170_camera_origin`, `FFrame.C170_camera_direction`, `FFrame.C170_ortho_direction`, `FFrame.C170_panorama_direction`, `FFrame.C170_violated_vertical`, `FFrame.C170_violated_statement`, `FTex.C171_wrap`, `FTex.C171_bilinear`, `FTex.C171_bilinear_range`, `FTex.C171_unfiltered`, `FTex.C171_level`, `FTex.C171_trilinear_iff`, `FTex.C171_trilinear_range`, `FTex.C171_solve`, `FTex.C171_differentials_partial`, `FTex.C171_ewa_sums`, `FTex.C171_ewa`, `FTex.C171_ewa_flat`, `FTex.C171_ewa_weight`, `FTex.C171_ewa_outside`, `FTex.C171_violated_ewa_diagonal`, `FTex.C171_violated_wrap`, `FTex.C171_violated_bilinear`, `FTex.C171_violated_trilinear`, `FTex.C171_violated_ewa`, `FTex.C171_violated_horizon`, `FTex.C171_violated_sharp`, `FTex.C171_violated`, `FLight.C172_box`, `FLight.C172_box_densities`, `FLight.C172_mesh`, `FLight.C172_mesh_densities`, `FLight.C172_triangle`, `FLight.C172_sphere`, `FLight.C172_violated_box`, `FLight.C172_violated_hang`, `FLight.C172_violated_absorbed`, `FLight.C172_violated_single`, `FLight.C172_violated_outside`, `FLight.C172_violated_search`, `FLight.C172_violated`, `FBox.C173_hit`, `FBox.C173_outside`, `FBox.C173_inside`, `FBox.C173_frame`, `FBox.C173_violated_plane`, `FBox.C173_violated_plane_one`, `FBox.C173_violated`, `FAsset.C174_tangent`, `FAsset.C174_normal`, `FAsset.C174_angle`, `FAsset.C174_side`, `FAsset.C174_tangent_turned`, `FAsset.C174_normal_turned`, `FAsset.C174_side_turned`, `FAsset.C174_shape`, `FAsset.C174_box_partial`, `FAsset.C174_violated_box`, `FAsset.C174_violated`, `FArea.C175_scale`, `FArea.C175_sphere`, `FArea.C175_box`, `FArea.C175_sphere_density`, `FArea.C175_box_density`, `FArea.C175_density`, `FArea.C175_triangle`, `FArea.C175_triangle_placed`, `FArea.C175_corner`, `FArea.C175_violated_large`, `FArea.C175_violated_small`, `FArea.C175_violated`, `Direct.C176_light`, `Direct.C176_material`, `Direct.C176_material_unseen`, `Direct.C176_material_black`, `Direct.C176_both`, `Direct.C176_visible`, `FPath.C177_bounded`, `FPath.C177_vertices`, `FPath.C177_near`, `FPath.C177_roulette`, `FChoice.C178_light`, `FChoice.C178_part`, `FChoice.C178_inexact`, `FSampler.C179_random`, `FSampler.C179_stratum`, `FSampler.C179_end`
