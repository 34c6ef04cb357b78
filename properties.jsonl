{"id": "C01", "title": "Tiled 2-D buffer behaves like a matrix", "statement": "After any sequence of set(x,y,v) calls on an Array2D of side n, get(x,y) returns the value of the last set to exactly that (x,y) (or the constructor value when there was none); writing one cell never changes another, and no access leaves the allocation.", "quantifier": "all sides 1..32768, all cells, all finite write sequences", "why_tests_cant": "The block-swizzled address arithmetic has ~10^9 address pairs per side; a collision or an out-of-bounds index for one pair is invisible to sampled tests.", "anchors": ["src/utility/array2D.hpp:Array2D::get", "src/utility/array2D.hpp:Array2D::set", "src/utility/array2D.hpp:Array2D::Array2D"]}
{"id": "C02", "title": "Tiled 2-D buffer supports every side its constructor accepts", "statement": "The matrix behaviour of Array2D holds for every 32-bit side accepted by the constructor, in particular no address becomes negative and no size computation wraps.", "quantifier": "all unsigned 32-bit sides", "why_tests_cant": "Sides large enough to overflow need tens of GB, so no test can allocate them.", "anchors": ["src/utility/array2D.hpp:Array2D"]}
{"id": "C03", "title": "Random generator never loses state", "statement": "Two generators in different internal states never reach the same state after the same number of draws: each draw is an invertible function of the 1024-bit state, so a sequence never falls from one seed's orbit into another and never gets stuck in a shorter pre-periodic tail.", "quantifier": "all 2^1024 states, all draw counts", "why_tests_cant": "The state space cannot be enumerated; only an algebraic argument covers it.", "anchors": ["src/utility/wellrng.cpp:WELLrng::getNumber", "src/utility/wellrng.hpp:WELLrng"]}
{"id": "C04", "title": "Random generator degenerate seeds", "statement": "The generator produces a non-zero value infinitely often unless all 32 seed words are zero; the all-zero seed yields only zeros.", "quantifier": "all seeds, all draw counts", "why_tests_cant": "A statement about infinite sequences from 2^1024 seeds.", "anchors": ["src/utility/wellrng.cpp:WELLrng::getNumber"]}
{"id": "C05", "title": "Random floats are in [0,1] and reach 1.0", "statement": "getNumber always returns a value v with 0<=v<=1, and (because of single precision rounding) the upper bound 1.0 itself is returned exactly for the integer draws 2^32-128 .. 2^32-1, so callers must tolerate 1.0.", "quantifier": "all 2^32 integer draws", "why_tests_cant": "The offending draws have probability 3e-8 each call; sampled tests essentially never see them.", "anchors": ["src/utility/wellrng.cpp:WELLrng::getNumber"]}
{"id": "C06", "title": "Render tiles partition the image", "statement": "For every image whose width is a multiple of 32, the tasks queued by the renderer cover each pixel of the image exactly once and never contain a pixel outside the image.", "quantifier": "all widths multiple of 32 (including 0) and all heights", "why_tests_cant": "Holds for unboundedly many resolutions, including heights not multiple of the tile size.", "anchors": ["src/renderer.cpp:Renderer::render", "src/settings.h:SPLIT_SIZE"]}
{"id": "C07", "title": "Samplers visit every pixel of a tile exactly once and stop", "statement": "Calling get_samples repeatedly on a sampler for a non-empty window returns true exactly once for each pixel of the window, in row-major order, and false forever after; every returned sample lies inside its pixel.", "quantifier": "all non-empty windows, all random streams", "why_tests_cant": "Universally quantified over windows and over the random stream.", "anchors": ["src/samplers/sampler_random.cpp:SamplerRandom::get_samples", "src/samplers/sampler_stratified.cpp:SamplerStratified::get_samples"]}
{"id": "C08", "title": "Stratified sampler fills the sample array with one sample per stratum", "statement": "When spp is a perfect square, each get_samples call of the stratified sampler writes all spp samples, exactly one in every cell of the sqrt(spp) x sqrt(spp) grid of the pixel; when spp is not a perfect square some entries are left unwritten (stale).", "quantifier": "all spp, all random streams", "why_tests_cant": "Quantifies over every jitter value and every spp.", "anchors": ["src/samplers/sampler_stratified.cpp:SamplerStratified", "src/parsers/config_driver.cpp:ConfigDriver::check_spp"]}
{"id": "C09", "title": "Film loses no contribution under any schedule", "statement": "For any interleaving of the worker threads and any outcome of the non-blocking lock attempts, when all workers have finished, the film buffer equals the sum of all sample contributions and no deferred contribution is left (individual pixel additions taken as atomic).", "quantifier": "all thread counts, all interleavings, all try-lock outcomes, all sample streams", "why_tests_cant": "The interleaving space is exponential and a stress test samples a vanishing part of it.", "anchors": ["src/cameras/image_film.cpp:ImageFilm::add_pixel", "src/cameras/image_film.cpp:ImageFilm::add_pixel_deferred", "src/cameras/image_film.cpp:ImageFilm::add_pixel_forced", "src/renderer.cpp:executor"]}
{"id": "C10", "title": "Film pixel updates do not race", "statement": "No two worker threads update the same film pixel without synchronisation: a pixel is written by at most one thread outside the film mutex, and never concurrently with a write made under the mutex.", "quantifier": "all schedules of two or more workers", "why_tests_cant": "A lost update is one interleaving among millions; tests pass almost always.", "anchors": ["src/cameras/image_film.cpp:ImageFilm::add_pixel", "src/cameras/image_film.cpp:ImageFilm::add_pixel_deferred"]}
{"id": "C11", "title": "Sample contributes to every pixel inside the filter support", "statement": "A sample added to the film contributes (with the filter weight) to every pixel of the image whose centre lies within the filter range of the sample position, and to no other pixel.", "quantifier": "all sample positions, all filter ranges", "why_tests_cant": "Continuum of positions; the boundary case is the one that fails.", "anchors": ["src/cameras/image_film.cpp:ImageFilm::add_pixel", "src/samplers/filter.hpp:Filter"]}
{"id": "C12", "title": "kd-tree node packing is lossless", "statement": "A kd-tree leaf node returns exactly the asset offset and asset count it was built with and an internal node returns exactly its split axis, split position and sibling index, for all offsets below 2^29 and counts below 2^31; leaf and internal nodes are never confused.", "quantifier": "all 2^29 offsets, all axes, all counts", "why_tests_cant": "The bit-packed field domains are too large to enumerate.", "anchors": ["src/accelerators/kdtree.hpp:KdTreeNode", "src/accelerators/kdtree.cpp:KdTreeNode"]}
{"id": "C13", "title": "kd-tree build keeps every asset reachable", "statement": "After building, for every asset and every point inside both the asset's bounding box and the scene box, the leaf of the tree that contains the point lists the asset, whatever splits are chosen and however ties between equal box sides are ordered, provided no bounding box is flat along the split axis.", "quantifier": "all asset lists, all split choices, all tie orders of the unstable sort", "why_tests_cant": "The tie order of std::sort is unspecified and scene space is unbounded.", "anchors": ["src/accelerators/kdtree.cpp:KdTree::build", "src/accelerators/kdtree.cpp:KdTree::buildTree", "src/accelerators/kdtree.cpp:KdTree::finalize"]}
{"id": "C14", "title": "kd-tree intersection finds the closest asset", "statement": "The hit reported by the kd-tree for a ray has the same distance as the closest hit found by testing every asset directly, and it reports no hit only when no asset is hit.", "quantifier": "all trees produced by the builder, all rays", "why_tests_cant": "Equivalence with brute force for all scenes and rays.", "anchors": ["src/accelerators/kdtree.cpp:KdTree::intersect"]}
{"id": "C15", "title": "kd-tree traversal stack never overflows", "statement": "Traversal of any tree produced by the builder never pushes more entries than the fixed traversal stack can hold.", "quantifier": "all trees of the allowed depth, all rays", "why_tests_cant": "The overflow needs one specific ray through one specific deep tree.", "anchors": ["src/accelerators/kdtree.cpp:KdTree::intersect"]}
{"id": "C16", "title": "kd-tree asset list stays inside its allocation", "statement": "Adding assets to the kd-tree never writes outside the allocated asset list, for any number of assets, and beyond the limit the extra asset is rejected.", "quantifier": "all numbers of added assets", "why_tests_cant": "Heap overflows do not make a unit test fail deterministically, and tests stay below the limit.", "anchors": ["src/accelerators/kdtree.cpp:KdTree::addAsset"]}
{"id": "C17", "title": "Rebuilding the kd-tree reflects the new asset set", "statement": "Calling buildTree again after adding more assets yields a tree that answers queries about the full asset set.", "quantifier": "all sequences of addAsset and buildTree calls", "why_tests_cant": "Unbounded call sequences.", "anchors": ["src/accelerators/kdtree.cpp:KdTree::buildTree"]}
{"id": "C18", "title": "Morton codes interleave coordinate bits", "statement": "For 21-bit grid coordinates, bit 3k of the Morton code is bit k of x, bit 3k+1 bit k of y and bit 3k+2 bit k of z; hence the code is injective, and it is the same whether computed with shift-and-mask or with the pdep instruction.", "quantifier": "all 2^63 coordinate triples", "why_tests_cant": "2^63 inputs.", "anchors": ["src/accelerators/bvh.cpp:expand", "src/accelerators/bvh.cpp:mortonCode"]}
{"id": "C19", "title": "BVH build places every triangle in exactly one leaf", "statement": "For every mesh, the recursive partition terminates and the leaves of the resulting tree hold contiguous, pairwise disjoint ranges that cover all triangles, each leaf holding between 1 and 3 triangles.", "quantifier": "all meshes with at least one triangle, all Morton code assignments", "why_tests_cant": "Termination and coverage for unbounded meshes including all-equal Morton codes.", "anchors": ["src/accelerators/bvh.cpp:makePartition", "src/accelerators/bvh.cpp:traverseTree", "src/accelerators/bvh.cpp:Bvh::buildTree"]}
{"id": "C20", "title": "BVH clustering always merges two distinct clusters", "statement": "While agglomerating, the builder always picks two different existing clusters, reduces the number of clusters by one per step, keeps the multiset of leaves and reaches the requested number of clusters; no access leaves the cluster array.", "quantifier": "all cluster lists, all finite symmetric positive surface functions", "why_tests_cant": "The nearest-neighbour cache is updated incrementally; a stale entry shows only for particular merge orders.", "anchors": ["src/accelerators/bvh.cpp:combineCluster", "src/accelerators/bvh.cpp:findBestMatch"]}
{"id": "C21", "title": "BVH intersection equals brute force", "statement": "BVH traversal reports a hit exactly when some triangle is hit closer than the given distance, with the minimal distance over all triangles, whenever a node's bounding box test accepts every ray that hits a triangle below it.", "quantifier": "all flattened trees, all rays, all split axes and direction signs", "why_tests_cant": "Equivalence with exhaustive search over all trees and rays.", "anchors": ["src/accelerators/bvh.cpp:Bvh::intersect", "src/accelerators/bvh.cpp:Bvh::flatten"]}
{"id": "C22", "title": "BVH traversal stack never overflows", "statement": "Traversal of a mesh BVH never writes beyond the 32-entry job stack, for every mesh.", "quantifier": "all meshes", "why_tests_cant": "Only meshes producing trees deeper than 32 levels trigger it.", "anchors": ["src/accelerators/bvh.cpp:Bvh::intersect"]}
{"id": "C23", "title": "Triangles keep their own material", "statement": "In a scene with a multi-material mesh, a ray hitting a triangle is shaded with the material that the .obj file assigned to that very triangle.", "quantifier": "all meshes, all material assignments", "why_tests_cant": "The build reorders triangles; small test meshes (below 4 triangles, or in Morton order already) never show a mismatch.", "anchors": ["src/accelerators/bvh.cpp:Bvh::buildTree", "src/primitives/mesh.cpp:Mesh::finalize", "src/primitives/asset.cpp:Asset::get_material", "src/parsers/config_driver.cpp:ConfigDriver::build_meshes"]}
{"id": "C24", "title": "Bounding boxes combine as a least upper bound", "statement": "Engulfing a point or box yields the smallest axis-aligned box containing both; the operation is commutative, associative, idempotent and has the empty box as identity, so the result does not depend on the order in which parts are added.", "quantifier": "all boxes and points", "why_tests_cant": "Order independence over arbitrary sequences.", "anchors": ["src/geometry/AABB.cpp:AABB::engulf", "src/geometry/AABB.cpp:AABB::operator+"]}
{"id": "C25", "title": "Ray-box test accepts exactly the rays whose line meets the box", "statement": "For a ray with non-zero direction components, the slab test succeeds if and only if some point origin+t*direction lies in the box, and then the reported entry/exit parameters are the exact end points of the set of such t; the test does not reject boxes behind the origin.", "quantifier": "all rays with non-zero direction components, all well-formed boxes", "why_tests_cant": "Continuum of inputs, branches on direction signs.", "anchors": ["src/geometry/AABB.cpp:AABB::intersect", "src/geometry/ray.hpp:RayProperties"]}
{"id": "C26", "title": "Matrix inverse is a two-sided inverse", "statement": "Whenever Matrix4::inverse reports success, multiplying the matrix by the result, on either side, gives the identity (exact arithmetic).", "quantifier": "all 4x4 matrices with non-zero determinant", "why_tests_cant": "A 16-variable polynomial identity; tests sample a few matrices and one wrong sign in 96 products may cancel on them.", "anchors": ["src/geometry/matrix4.cpp:Matrix4::inverse", "src/geometry/matrix4.cpp:operator*"]}
{"id": "C27", "title": "World bounding box contains the transformed shape", "statement": "The bounding box computed for a mesh, box or sphere under an affine transform contains the image of every point of the shape's object-space box.", "quantifier": "all affine matrices, all boxes, all points in them", "why_tests_cant": "Universally quantified over a continuum.", "anchors": ["src/primitives/mesh.cpp:Mesh::compute_AABB", "src/primitives/box.cpp:Box::compute_AABB", "src/primitives/sphere.cpp:Sphere::compute_AABB"]}
{"id": "C28", "title": "Ray-triangle intersection is exact", "statement": "Triangle::intersect returns true with distance t exactly when origin+t*direction is the unique point of the ray's line on the (non parallel) triangle and epsilon<=t<=current distance; otherwise it returns false and leaves the distance unchanged.", "quantifier": "all rays and triangles (exact arithmetic)", "why_tests_cant": "Continuum; barycentric sign mistakes show only in some octants.", "anchors": ["src/primitives/triangle.cpp:Triangle::intersect"]}
{"id": "C29", "title": "Intersection never returns a farther hit", "statement": "A shape intersection call that returns true never increases the distance passed in, also in presence of a transparency mask.", "quantifier": "all shapes, rays, masks and current distances", "why_tests_cant": "Needs a particular combination of masked first hit and occluder between the two hits.", "anchors": ["src/primitives/sphere.cpp:Sphere::intersect", "src/primitives/triangle.cpp:Triangle::intersect", "src/primitives/box.cpp:Box::intersect"]}
{"id": "C30", "title": "Mesh light sampling picks triangles proportionally to area", "statement": "Sampling a point on a mesh with a uniform first random number chooses triangle i exactly when the scaled number falls in the cumulative-area interval of triangle i, so every triangle is chosen with probability proportional to its area, and the search terminates.", "quantifier": "all area distributions, all random numbers in [0,1]", "why_tests_cant": "Statistical tests cannot distinguish small area errors and cannot show termination for every input.", "anchors": ["src/primitives/mesh.cpp:Mesh::sample_point", "src/primitives/mesh.cpp:Mesh::get_densities_array"]}
{"id": "C31", "title": "Box sampling picks faces proportionally to area", "statement": "The last entry of a box's cumulative densities equals its world-space surface, and sampling chooses each of the six faces exactly on an interval whose length is that face's scaled area, producing a point on that face with its outward normal.", "quantifier": "all positive scales, all random numbers in [0,1)", "why_tests_cant": "Continuum of scales and samples.", "anchors": ["src/primitives/box.cpp:Box::get_densities_array", "src/primitives/box.cpp:Box::sample_point", "src/primitives/box.cpp:Box::surface"]}
{"id": "C32", "title": "Layered material: sampling and evaluation agree", "statement": "For a non-specular sampled direction, the value returned by a multi-layer material's sample_value equals the value returned by value() for the same pair of directions.", "quantifier": "all layer stacks, all textures, all directions", "why_tests_cant": "Needs two layers with different textures and a particular chosen layer.", "anchors": ["src/materials/multi_bsdf.cpp:MultiBSDF::sample_value", "src/materials/multi_bsdf.cpp:MultiBSDF::value"]}
{"id": "C33", "title": "Layered material never indexes outside its layers", "statement": "Adding layers and sampling a multi-layer material never reads or writes outside the fixed layer arrays, for any number of layers added and any random number in [0,1].", "quantifier": "all layer counts, all random numbers including 1.0", "why_tests_cant": "Out-of-bounds accesses do not fail tests deterministically.", "anchors": ["src/materials/multi_bsdf.cpp:MultiBSDF::inherit_bdf", "src/materials/multi_bsdf.cpp:MultiBSDF::sample_value"]}
{"id": "C34", "title": "Russian roulette keeps the estimator unbiased", "statement": "Terminating paths by Russian roulette does not change the expected radiance: survival weight times survival probability equals one.", "quantifier": "all path throughputs", "why_tests_cant": "An expectation over a continuous distribution; visual tests cannot see a bias.", "anchors": ["src/integrators/path_tracer.cpp:PathTracer::l_rec"]}
{"id": "C35", "title": "Direct lighting accounts for all lights", "statement": "The expected direct lighting obtained by sampling one light uniformly equals the sum of the contributions of all lights.", "quantifier": "all numbers of lights up to the limit, all contributions", "why_tests_cant": "An expectation; with one light (the usual test) the error vanishes.", "anchors": ["src/integrators/ray_tracer.cpp:direct_l"]}
{"id": "C36", "title": "Emission of a directly seen light is counted once", "statement": "The radiance reported for a camera ray that hits an emitter on its front side contains the emitter's own emission exactly once.", "quantifier": "all emitters and camera rays", "why_tests_cant": "Tests check finiteness or non-blackness, not the exact radiance for every emitter.", "anchors": ["src/integrators/path_tracer.cpp:PathTracer::l_rec", "src/integrators/ray_tracer.cpp:direct_l"]}
{"id": "C37", "title": "Occlusion cache is transparent", "statement": "The answer of the shadow test for a ray and distance does not depend on which rays were tested before: the last-occluder cache never changes a result.", "quantifier": "all query histories, all scenes", "why_tests_cant": "History dependence over unbounded sequences.", "anchors": ["src/utility/occlusion_tester.cpp:OcclusionTester::is_occluded"]}
{"id": "C38", "title": "BMP files written are read back unchanged", "statement": "Reading a BMP file produced by the writer returns the same width, height and pixel colours, for every image size, including those whose rows need padding.", "quantifier": "all widths and heights, all pixel data", "why_tests_cant": "All row paddings and image sizes.", "anchors": ["src/utility/imageio/bmp.c:bmp_write", "src/utility/imageio/bmp.c:bmp_read", "src/utility/imageio/bmp.c:bmp_dimensions"]}
{"id": "C39", "title": "BMP row padding follows the file format", "statement": "Rows of a written BMP file are padded to a multiple of 4 bytes and the file length equals the length declared in the header, so other programs can read it.", "quantifier": "all widths and heights", "why_tests_cant": "The round trip inside the program hides a wrong padding rule.", "anchors": ["src/utility/imageio/bmp.c:bmp_write"]}
{"id": "C40", "title": "TGA files written are read back unchanged", "statement": "Reading a TGA file produced by the writer returns the same dimensions and pixel colours for all image sizes up to 65535 per side.", "quantifier": "all sizes up to 16 bits, all pixel data", "why_tests_cant": "All sizes and pixel values.", "anchors": ["src/utility/imageio/tga.c:tga_write", "src/utility/imageio/tga.c:tga_read", "src/utility/imageio/tga.c:tga_dimensions"]}
{"id": "C41", "title": "TGA run-length decoding is correct and in bounds", "statement": "Decoding a run-length encoded TGA image yields the pixel sequence defined by the TGA packets (run packets and raw packets), and never writes outside the destination for any file content.", "quantifier": "all packet sequences, including malicious ones", "why_tests_cant": "All packet mixes; raw packets longer than one pixel and overlong final packets.", "anchors": ["src/utility/imageio/tga.c:tga_read"]}
{"id": "C42", "title": "PPM files written are read back unchanged", "statement": "Reading a binary PPM written by the program returns the same dimensions and colours.", "quantifier": "all sizes, all pixel data", "why_tests_cant": "All sizes and all 2^24 colours.", "anchors": ["src/utility/imageio/ppm.c:ppm_write", "src/utility/imageio/ppm.c:ppm_read"]}
{"id": "C43", "title": "PPM sample values above the declared maximum saturate", "statement": "A PPM sample larger than the declared maximum is read as full intensity (255).", "quantifier": "all samples and maxima", "why_tests_cant": "Malformed samples are not in the test corpus.", "anchors": ["src/utility/imageio/ppm.c:ppm_read"]}
{"id": "C44", "title": "Pixel format conversions are mutually inverse", "statement": "Converting RGB bytes to packed BGRA pixels and back returns the original bytes; the reverse round trip keeps colours and makes the pixel opaque; byte-order swaps are involutions.", "quantifier": "all pixels, all buffer lengths", "why_tests_cant": "2^32 pixel values, all lengths.", "anchors": ["src/utility/imageio/imageio.c:BGRAtoRGB", "src/utility/imageio/imageio.c:RGBtoBGRA", "src/utility/utility.hpp:swap_endianness"]}
{"id": "C45", "title": "Texture pyramid has a 1x1 top and consistent levels", "statement": "A texture of side 2^k gets k+1 levels, the side of level i is 2^(k-i), every texel of a coarser level is between the minimum and the maximum of the four texels it summarises, and a uniformly coloured texture is uniform at all levels.", "quantifier": "all k up to 15, all texel contents", "why_tests_cant": "All texel contents.", "anchors": ["src/textures/image_map.cpp:ImageMap::ImageMap", "src/textures/image_map.cpp:downsample"]}
{"id": "C46", "title": "Texture filtering stays inside the pyramid", "statement": "Trilinear and EWA lookups only access existing pyramid levels and texels inside them, for every uv in [0,1] and every differential.", "quantifier": "all uv, all differentials", "why_tests_cant": "The failing differential is a single boundary value.", "anchors": ["src/textures/image_map.cpp:ImageMapTrilinear::filter", "src/textures/image_map.cpp:ImageMapEWA::filter", "src/textures/image_map.cpp:ImageMap::bilinear"]}
{"id": "C47", "title": "Texture coordinates wrap into [0,1]", "statement": "For every finite uv coordinate the coordinate used for the lookup is in [0,1] and is congruent to the input modulo 1 (texture repeats).", "quantifier": "all uv coordinates, scales and shifts", "why_tests_cant": "Continuum including negative coordinates.", "anchors": ["src/textures/texture_image.cpp:TextureImage::map_value"]}
{"id": "C48", "title": "Path resolution normalises like the file system", "statement": "Constructing or appending a relative path gives the absolute path obtained by resolving '.', '..' and repeated slashes component by component.", "quantifier": "all absolute bases and relative paths", "why_tests_cant": "Unbounded strings; the tests use only directory names of two or more letters.", "anchors": ["src/utility/file.cpp:append_relative", "src/utility/file.cpp:File::append"]}
{"id": "C49", "title": "Parent of a path", "statement": "get_parent returns the containing directory, whose filename() is the last component of that directory, and repeated application reaches the root.", "quantifier": "all normalised absolute paths", "why_tests_cant": "Unbounded paths; failing depth is two components.", "anchors": ["src/utility/file.cpp:File::get_parent"]}
{"id": "C50", "title": "Included scene files resolve relative to the including file", "statement": "Every file mentioned in a scene description is resolved relative to the directory of that scene description, independently of the other files mentioned.", "quantifier": "all lists of included files", "why_tests_cant": "Tests include at most one child file.", "anchors": ["src/parsers/config_driver.cpp:ConfigDriver::parse"]}
{"id": "C51", "title": "Samples per pixel become a perfect square", "statement": "With the stratified sampler any requested positive spp is replaced by a perfect square no more than sqrt(spp)+1 away, and perfect squares are kept.", "quantifier": "all spp", "why_tests_cant": "All integers.", "anchors": ["src/parsers/config_driver.cpp:ConfigDriver::check_spp"]}
{"id": "C52", "title": "Resolution is adjusted to renderable size", "statement": "After parsing, the image width is a positive multiple of 32, at least the requested width and less than 32 more; an already valid resolution is not changed; an adjusted height is even.", "quantifier": "all requested resolutions", "why_tests_cant": "All integer pairs.", "anchors": ["src/parsers/config_driver.cpp:ConfigDriver::check_resolution"]}
{"id": "C53", "title": "Material library is insert-once with a permanent default", "statement": "Looking up a name returns the first material inserted under it since the last clear, the default material is always present and can be neither replaced nor erased, for every sequence of operations.", "quantifier": "all operation sequences", "why_tests_cant": "Unbounded operation sequences.", "anchors": ["src/materials/material_library.cpp:MaterialLibrary"]}
{"id": "C54", "title": "Texture library ownership", "statement": "For every sequence of library operations each inherited object is owned exactly once: lookups never return a freed object and clear frees everything once, with the default texture always available.", "quantifier": "all operation sequences", "why_tests_cant": "Unbounded operation sequences.", "anchors": ["src/textures/texture_library.cpp:TextureLibrary"]}
{"id": "C55", "title": "Scene keeps at most 32 lights and each asset once", "statement": "The number of lights never exceeds the limit, every registered light is also an asset, and each inherited asset appears once in the intersection structure.", "quantifier": "all sequences of inherit calls", "why_tests_cant": "Unbounded sequences; the limit is rarely reached.", "anchors": ["src/utility/scene.cpp:Scene::inherit_asset", "src/utility/scene.cpp:Scene::inherit_light"]}
{"id": "C56", "title": "OBJ parsing does not depend on buffer boundaries", "statement": "The tokens seen by the OBJ reader are a function of the file contents only: splitting the same bytes into read chunks differently gives the same tokens.", "quantifier": "all byte strings free of the sentinel byte, all chunk sizes", "why_tests_cant": "Boundary coincidences depend on exact offsets.", "anchors": ["src/parsers/parser_obj.cpp:get_next_token", "src/parsers/parser_obj.cpp:feed_buffer"]}
{"id": "C57", "title": "OBJ parsing terminates", "statement": "Parsing any finite OBJ file terminates.", "quantifier": "all finite byte strings", "why_tests_cant": "Termination is a liveness statement; a hang shows as a test timeout only on the specific input.", "anchors": ["src/parsers/parser_obj.cpp:ParserObj::get_next_mesh"]}
{"id": "C58", "title": "OBJ face indices", "statement": "A face index i>0 designates the i-th vertex defined so far, i<0 the |i|-th from the end, any other index is reported as an error and never reads outside the vertex list.", "quantifier": "all indices, all vertex counts", "why_tests_cant": "All integer pairs.", "anchors": ["src/parsers/parser_obj.cpp:ParserObj::get_next_mesh"]}
{"id": "C59", "title": "Polygon triangulation", "statement": "A face with n>=3 vertices is turned into n-2 triangles forming a fan that uses every vertex, keeps orientation and tiles the polygon boundary exactly once.", "quantifier": "all n", "why_tests_cant": "All polygon sizes.", "anchors": ["src/parsers/parser_obj.cpp:ParserObj::get_next_mesh"]}
{"id": "C60", "title": "Per-mesh material table is compact and faithful", "statement": "After a mesh is finished, every face refers through the compacted table to the same material name it was assigned in the file, the table contains only used materials, without duplicates, and face indices are in range.", "quantifier": "all face/material assignments with at most 255 used materials", "why_tests_cant": "Unbounded assignments.", "anchors": ["src/parsers/parser_obj.cpp:ParserObj::finalize_mesh", "src/parsers/parser_obj.cpp:ParserObj::get_materials"]}
{"id": "C61", "title": "Elapsed time formatting", "statement": "format_seconds writes at most 16 characters plus terminator and the printed days, hours, minutes and seconds add up to the given number of seconds with hours<24, minutes<60, seconds<60.", "quantifier": "all non-negative durations", "why_tests_cant": "All integers.", "anchors": ["src/utility/utility.cpp:format_seconds"]}
{"id": "C62", "title": "Scalar helpers", "statement": "clamp returns the closest value of the interval, min/max are lattice operations, lerp and inverse_lerp are mutually inverse on non-degenerate intervals, and equation2 returns exactly the real roots in order-independent form.", "quantifier": "all values (exact arithmetic)", "why_tests_cant": "Continuum.", "anchors": ["src/utility/utility.hpp:clamp", "src/utility/utility.hpp:lerp", "src/utility/utility.hpp:inverse_lerp", "src/utility/utility.hpp:equation2"]}
{"id": "C63", "title": "Assets are intersected in world space", "statement": "Intersecting an asset is always defined for an invertible affine transform, a hit lies on the world ray at the returned distance and on the transformed shape, its normal is orthogonal to the transformed tangent plane, and a miss means that no point of the transformed shape is on the ray in range.", "quantifier": "all invertible affine transforms, all shapes correct in object space, all rays", "why_tests_cant": "Continuum of transforms; the tolerance of the determinant test is hit only by small objects.", "anchors": ["src/primitives/asset.cpp:Asset::intersect", "src/primitives/asset.cpp:Asset::Asset", "src/geometry/matrix4.cpp:Matrix4::inverse"]}
{"id": "C64", "title": "Box hits are exact, with the outward normal", "statement": "Box::intersect reports exactly the first crossing of the surface of the unit box beyond the tolerance and within the current distance, with the outward normal of the face that was hit.", "quantifier": "all rays with non-zero direction components, all distances", "why_tests_cant": "Continuum of rays, from outside and from inside.", "anchors": ["src/primitives/box.cpp:Box::intersect"]}
{"id": "C65", "title": "Triangle tangents are the derivatives of the position", "statement": "The dpdu and dpdv written by a triangle hit are the partial derivatives of the position with respect to the interpolated texture coordinates, whenever those are not degenerate.", "quantifier": "all triangles and texture coordinates with non-zero determinant", "why_tests_cant": "Continuum; tests compare against the same formula.", "anchors": ["src/primitives/triangle.cpp:Triangle::intersect"]}
{"id": "C66", "title": "Layered material: sampled density and pdf agree", "statement": "The density reported by sampling a multi-layer material for a non-specular direction equals the density returned by pdf() for the same pair of directions.", "quantifier": "all layer stacks, all directions", "why_tests_cant": "Unbounded layer combinations, continuum of directions.", "anchors": ["src/materials/multi_bsdf.cpp:MultiBSDF::sample_value", "src/materials/multi_bsdf.cpp:MultiBSDF::pdf"]}
{"id": "C67", "title": "BMP reader decodes both row orders and stays in bounds", "statement": "bmp_read decodes top-down and bottom-up files of 24 and 32 bits per pixel to the pixels they describe, and never writes outside of the buffer of width times height pixels that its caller allocates, whatever the file contains.", "quantifier": "all files, all sizes", "why_tests_cant": "Unbounded space of file contents; the offending headers are not produced by the writer.", "anchors": ["src/utility/imageio/bmp.c:bmp_read", "src/utility/imageio/bmp.c:bmp_dimensions"]}
{"id": "C68", "title": "PPM samples are scaled to eight bits", "statement": "Every sample v of a well-formed PPM file (text or binary, one or two bytes per sample, maximum m) with v <= m is read as the byte floor(255 v / m).", "quantifier": "all well-formed files, all maxima, all samples", "why_tests_cant": "65535 maxima times 65536 samples with float rounding, unbounded number of files.", "anchors": ["src/utility/imageio/ppm.c:ppm_read", "src/utility/imageio/endianness.h:ENDIANNESS_BIG16"]}
{"id": "C69", "title": "PPM reader fills exactly the announced buffer", "statement": "For every file for which ppm_dimensions and ppm_read are defined, the number of pixels stored by ppm_read is at most width times height as reported by ppm_dimensions, and equal to it if ppm_read reports success.", "quantifier": "all byte strings", "why_tests_cant": "Unbounded space of file contents.", "anchors": ["src/utility/imageio/ppm.c:ppm_read", "src/utility/imageio/ppm.c:ppm_dimensions"]}
{"id": "C70", "title": "Bilinear lookups interpolate the repeated texture", "statement": "A bilinear lookup returns the texel itself at texel centres and, everywhere else, the interpolation of the four nearest texels of the endlessly repeated texture (rounded down per component); in particular the lookups at 0 and 1 agree.", "quantifier": "all textures, levels and coordinates in [0,1]", "why_tests_cant": "Continuum of coordinates; only the outermost half texel differs.", "anchors": ["src/textures/image_map.cpp:ImageMap::bilinear"]}
{"id": "C71", "title": "Filtering keeps the colour of a uniform texture", "statement": "Every filtered lookup in a texture of a single colour returns that colour.", "quantifier": "all colours, sides, coordinates and footprints", "why_tests_cant": "Continuum of footprints; the error is one unit per component.", "anchors": ["src/textures/image_map.cpp:ImageMapTrilinear::filter", "src/textures/image_map.cpp:ImageMap::bilinear"]}
{"id": "C72", "title": "Accepted images are usable as textures", "statement": "Every image that passes the square power of two test of the texture constructor yields a complete pyramid.", "quantifier": "all 32-bit widths and heights", "why_tests_cant": "The failing sizes need 16 GiB of pixels.", "anchors": ["src/textures/texture_image.cpp:TextureImage::TextureImage", "src/textures/image_map.cpp:ImageMap::ImageMap"]}
{"id": "C73", "title": "Masks threshold the selected channel", "statement": "A masked point is visible exactly when the selected channel of the looked up texel is at least 128, or less than 128 for an inverted mask, and always visible without a map.", "quantifier": "all texels, channels and mask modes", "why_tests_cant": "Exhaustive over 2^32 texels times channels and modes.", "anchors": ["src/textures/mask_boolean.cpp:MaskBoolean::is_visible", "src/textures/texture_image.hpp:ImageChannel"]}
{"id": "C74", "title": "Texture differentials follow the scaled coordinates", "statement": "The differentials passed to the texture filter are those of the scaled texture coordinates: derivatives of u are multiplied by the factor of u, derivatives of v by the factor of v.", "quantifier": "all differentials, all scale factors", "why_tests_cant": "Continuum; only anisotropic scales differ and only in blurriness.", "anchors": ["src/textures/texture_image.cpp:TextureImage::map_value"]}
{"id": "C75", "title": "File name and extension of a path", "statement": "For every normalised absolute path below the root, filename() is the last component, and extension() is the part of it after its last dot, or empty when there is no dot or the only dot is its first character.", "quantifier": "all normalised absolute paths", "why_tests_cant": "The offsets are pointers into a buffer; tests use a handful of names, while the claim is about every name including hidden files and names with several dots.", "anchors": ["src/utility/file.cpp:File::File", "src/utility/file.cpp:File::extension"]}
{"id": "C76", "title": "Adjusted resolution keeps the aspect ratio", "statement": "When the width is rounded up to a multiple of 32 the height grows proportionally, up to one row and the rounding of two float divisions.", "quantifier": "all positive widths and heights up to 2^24", "why_tests_cant": "The error depends on truncation, evenness and two rounded divisions together; a test can only look at a few resolutions.", "anchors": ["src/parsers/config_driver.cpp:ConfigDriver::check_resolution"]}
{"id": "C77", "title": "Nearest multiple of an unsigned number", "statement": "nearest_uint returns a multiple of its second argument and no other multiple is closer to the first, whenever the sum of the number and half of the multiple fits in 32 bits.", "quantifier": "all pairs of unsigned numbers without overflow", "why_tests_cant": "The computation goes through int and unsigned conversions; the claim is about all 2^64 pairs.", "anchors": ["src/utility/utility.hpp:nearest_uint"]}
{"id": "C78", "title": "Face corners are read as written", "statement": "The position, texture and normal indices taken for a corner of a face are the numbers written in the file for each of the four forms v, v/t, v//n and v/t/n; an index which is not written counts as absent.", "quantifier": "all indices in the range of int, all earlier contents of the token array", "why_tests_cant": "Depends on what earlier, longer tokens left in a reused array; tests use small files whose earlier tokens are short.", "anchors": ["src/parsers/parser_obj.cpp:ParserObj::get_next_mesh"]}
{"id": "C79", "title": "Every object with a face is delivered", "statement": "Every object of an OBJ file which has at least one well-formed face is delivered to the caller as a mesh, whatever objects come before it.", "quantifier": "all OBJ files", "why_tests_cant": "Needs particular sequences of objects (an empty one in between), which exporters rarely write.", "anchors": ["src/parsers/parser_obj.cpp:ParserObj::get_next_mesh", "src/parsers/config_driver.cpp:ConfigDriver::parse_and_allocate_obj"]}
{"id": "C80", "title": "Measures of a bounding box", "statement": "surface() is the sum of the areas of the six faces, volume() the product of the extents, and center() the point equidistant from opposite faces, which lies inside of every non-empty box.", "quantifier": "all boxes, exact arithmetic", "why_tests_cant": "A wrong term in the formula of the surface only degrades the build heuristics; no image changes.", "anchors": ["src/geometry/AABB.cpp:AABB::surface", "src/geometry/AABB.cpp:AABB::volume", "src/geometry/AABB.cpp:AABB::center"]}
{"id": "C81", "title": "Filter weights are in [0,1]", "statement": "The weight of a reconstruction filter is a number in [0,1] at every offset inside of its range, as documented.", "quantifier": "all filters, all parameters, all offsets inside of the range", "why_tests_cant": "The range is a continuum and the negative lobes are narrow; a test of a few offsets agrees with the documentation.", "anchors": ["src/samplers/filter_box.cpp:FilterBox::weight", "src/samplers/filter_tent.cpp:FilterTent::weight", "src/samplers/filter_gaussian.cpp:FilterGaussian::weight", "src/samplers/filter_mitchell.cpp:FilterMitchell::weight", "src/samplers/filter_lanczos.cpp:FilterLanczos::weight"]}
{"id": "C82", "title": "Filters are symmetric, fade out, and preserve constants", "statement": "Every filter is symmetric in the sign and order of the offsets; tent, gaussian, Mitchell and Lanczos vanish on the border of the range; Mitchell is continuous and its weights over the pixels around a sample sum to 1 for all parameters, those of tent to a constant.", "quantifier": "all parameters, all sample positions", "why_tests_cant": "One wrong coefficient out of the seven of the cubic gives a plausible filter with a slight ripple in brightness.", "anchors": ["src/samplers/filter_tent.cpp:FilterTent::weight", "src/samplers/filter_gaussian.cpp:FilterGaussian::weight", "src/samplers/filter_mitchell.cpp:FilterMitchell::weight", "src/samplers/filter_lanczos.cpp:FilterLanczos::weight"]}
{"id": "C83", "title": "Fresnel reflectance is a fraction", "statement": "The reflectance given by Conductor::eval and Dielectric::eval is a number in [0,1] for every cosine a direction can have; the one of a dielectric is Fresnel's formula with Snell's angle, 1 under total reflection, and the same from both sides of the interface.", "quantifier": "all cosines in [-1,1], all positive indices and absorptions", "why_tests_cant": "A wrong term yields a plausible material; values above 1 occur only for back-facing directions.", "anchors": ["src/materials/fresnel_conditions.cpp:Conductor::eval", "src/materials/fresnel_conditions.cpp:Dielectric::eval"]}
{"id": "C84", "title": "Specular reflection carries the reflectance", "statement": "For the mirror direction a specular reflection returns, value times cosine over pdf is the reflectance: no energy is created, and total reflection loses none.", "quantifier": "all unit outgoing directions", "why_tests_cant": "Total reflection inside of a dielectric and metals seen from behind are the cases that go wrong, and only by a factor that looks like shading.", "anchors": ["src/materials/reflection.cpp:DielectricReflection::sample_value", "src/materials/reflection.cpp:ConductorReflection::sample_value"]}
{"id": "C85", "title": "Specular refraction obeys Snell's law", "statement": "The refracted direction is a unit vector on the other side, in the plane of incidence, with sines in the ratio of the indices; it is refused exactly under total reflection; refracting back returns the incoming ray; and the transmitted fraction is one minus the reflectance, scaled by the squared ratio of the indices.", "quantifier": "all unit outgoing directions that are not grazing, all positive indices", "why_tests_cant": "The sign of the normal component and the ratio to use depend on the side the ray comes from.", "anchors": ["src/materials/refraction.cpp:Refraction::sample_value"]}
{"id": "C86", "title": "Diffuse directions are drawn with the density reported", "statement": "The default sampling of a bdf draws unit directions on the side of the outgoing one, distributed proportionally to the cosine, and the pdf stored with the sample is the one pdf() computes for the pair.", "quantifier": "all pairs of random numbers in [0,1), all outgoing directions", "why_tests_cant": "A density that does not match biases the image by a smooth factor; no single sample is wrong.", "anchors": ["src/materials/bdf.cpp:Bdf::sample_value", "src/materials/bdf.cpp:Bdf::pdf"]}
{"id": "C87", "title": "Mirroring and refracting about a normal", "statement": "Vec3::reflect is an isometric involution fixing the normal's plane of symmetry; Vec3::refract returns a unit vector following Snell's law on the other side, and none exactly under total reflection.", "quantifier": "all unit vectors and unit normals", "why_tests_cant": "For normals pointing away from the vector the formula silently gives another direction.", "anchors": ["src/geometry/vec3.cpp:Vec3::reflect", "src/geometry/vec3.cpp:Vec3::refract"]}
{"id": "C88", "title": "Microfacet distributions are normalised", "statement": "The projected area of all microfacets over a unit of surface is one: the integral of D times cosine over the hemisphere is 1.", "quantifier": "all roughness values the constructors allow", "why_tests_cant": "An unnormalised distribution darkens or brightens every rough material uniformly, as would another albedo.", "anchors": ["src/materials/microfacet_distributions.cpp:Blinn::D", "src/materials/microfacet_distributions.cpp:Beckmann::D", "src/materials/microfacet_distributions.cpp:GGXiso::D"]}
{"id": "C89", "title": "Half vectors are drawn with the density reported", "statement": "For every interval of elevations the probability that sample_wh draws a half vector in it is the integral of the reported pdf over it.", "quantifier": "all roughness values, all intervals", "why_tests_cant": "As for diffuse sampling: only a bias of the average, invisible in any single sample.", "anchors": ["src/materials/microfacet_distributions.cpp:Blinn::sample_wh", "src/materials/microfacet_distributions.cpp:Blinn::pdf", "src/materials/microfacet_distributions.cpp:Beckmann::sample_wh", "src/materials/microfacet_distributions.cpp:GGXiso::sample_wh", "src/materials/microfacet_distributions.cpp:MicrofacetDist::pdf"]}
{"id": "C90", "title": "The visible fraction of the microfacets is a fraction", "statement": "The masking term is in [0,1], is 1 along the normal, and for GGX is Smith's formula.", "quantifier": "all roughness values, all unit directions", "why_tests_cant": "The excess is below one in ten thousand for the rational fits, and special cases happen at single directions.", "anchors": ["src/materials/microfacet_distributions.cpp:GGXiso::G1", "src/materials/microfacet_distributions.cpp:Beckmann::G1", "src/materials/microfacet_distributions.cpp:GGXaniso::G", "src/materials/microfacet_distributions.cpp:lambdaGGXaniso"]}
{"id": "C91", "title": "Rough reflection is reciprocal and sampled consistently", "statement": "Exchanging the two directions does not change the value of a MicrofacetR; a sampled direction is the unit mirror image about the half vector, its pdf is not negative and is the one pdf() computes.", "quantifier": "all unit directions, all half vectors on the side of the outgoing direction", "why_tests_cant": "Needs the identity between half vectors before and after mirroring; fails only in grazing directions.", "anchors": ["src/materials/microfacet.cpp:MicrofacetR::value", "src/materials/microfacet.cpp:MicrofacetR::sample_value", "src/materials/microfacet.cpp:MicrofacetR::pdf"]}
{"id": "C92", "title": "Rough refraction is sampled consistently", "statement": "The pdf reported with a direction sampled by MicrofacetT is the one pdf() computes for the pair, and the factor between half vectors and directions is the derivative of the refraction.", "quantifier": "all unit directions, all half vectors, all different indices", "why_tests_cant": "The factor involves both indices and both cosines; exchanging them keeps every value finite, positive and plausible.", "anchors": ["src/materials/microfacet.cpp:MicrofacetT::sample_value", "src/materials/microfacet.cpp:MicrofacetT::pdf"]}
{"id": "C93", "title": "Equal roughness along both axes is the isotropic distribution", "statement": "GGXaniso(a,a) has the same density of microfacets as GGXiso with the same roughness.", "quantifier": "all roughness values, all unit directions", "why_tests_cant": "Differs only in the single direction of the normal, and there by a factor.", "anchors": ["src/materials/microfacet_distributions.cpp:GGXaniso::D", "src/materials/microfacet_distributions.cpp:GGXiso::D"]}
{"id": "C94", "title": "The kd-tree is split at the cheapest plane", "statement": "The plane chosen by the builder minimises the surface area heuristic, counted with the assets and boxes the halves receive, over the candidates of all axes, and a node is not split when no plane pays.", "quantifier": "all lists of assets, all orders of equal candidates", "why_tests_cant": "Every choice gives a correct image; only the rendering time differs, and no test measures it.", "anchors": ["src/accelerators/kdtree.cpp:KdTree::build"]}
{"id": "C95", "title": "Sampled half vectors are unit vectors on the side of the outgoing direction", "statement": "sample_wh returns a vector of length 1 whose z component does not have the opposite sign of the one of wo, for Blinn, Beckmann and both GGX distributions.", "quantifier": "all roughness values, all outgoing directions, all random numbers in [0,1)", "why_tests_cant": "The cosine and sine are computed by separate formulas; a wrong pair shows only in the brightness of the reflection.", "anchors": ["src/materials/microfacet_distributions.cpp:Blinn::sample_wh", "src/materials/microfacet_distributions.cpp:Beckmann::sample_wh", "src/materials/microfacet_distributions.cpp:GGXiso::sample_wh", "src/materials/microfacet_distributions.cpp:GGXaniso::sample_wh"]}
{"id": "C96", "title": "Rough refraction is reciprocal up to the squared ratio of the indices", "statement": "For directions on opposite sides value(wo,wi) times the squared index of the side of wi is value(wi,wo) times the squared index of the side of wo; values are not negative, and are 0 for pairs no microfacet refracts into each other.", "quantifier": "all unit directions on opposite sides, all indices, all distributions with symmetric masking", "why_tests_cant": "Needs Snell's law at the half vector and the equality of the reflectances of both sides; an asymmetry is invisible in an image.", "anchors": ["src/materials/microfacet.cpp:MicrofacetT::value"]}
{"id": "C97", "title": "Rough diffuse reflection is the Oren-Nayar model", "statement": "The value is (A + B max(0,cos(phi_i-phi_o)) sin(alpha) tan(beta))/pi with alpha the larger and beta the smaller angle to the normal, symmetric in the two directions, at least A/pi, 1/pi for roughness 0, and defined unless both directions are grazing.", "quantifier": "all unit directions, all roughness values", "why_tests_cant": "A finite set of directions cannot tell a formula with the sign of the sines dropped from the right one in the half of the directions where they agree.", "anchors": ["src/materials/oren_nayar.cpp:OrenNayar::OrenNayar", "src/materials/oren_nayar.cpp:OrenNayar::value"]}
{"id": "C98", "title": "The shading space is an orthonormal frame and its two conversions are inverse", "statement": "The vectors s, t, n of the shading space of a hit are orthonormal and right-handed, to_world and to_shading keep lengths and angles of unit vectors and undo each other, and the third coordinate is the cosine to the normal.", "quantifier": "all hits with unit tangent and normal, all unit vectors", "why_tests_cant": "The frame of a hit is a continuum; the failure needs a normal that is not orthogonal to the tangent, which no unit test constructs.", "anchors": ["src/materials/shading_space.cpp:ShadingSpace::ShadingSpace", "src/materials/shading_space.cpp:ShadingSpace::to_world", "src/materials/shading_space.cpp:ShadingSpace::to_shading"]}
{"id": "C99", "title": "Bump mapping gives an orthonormal frame around the perturbed normal", "statement": "For height and normal maps the resulting frame is orthonormal, its third axis is the normal returned, which lies on the side of the geometric normal and is that of the surface described by the texture; a flat texture changes nothing.", "quantifier": "all tangents and normals, all gradients and texels", "why_tests_cant": "The properties are relations between infinitely many vectors; a flipped axis or a wrong scale only shows in shading.", "anchors": ["src/textures/texture_height.cpp:TextureHeight::bump", "src/textures/texture_normal.cpp:TextureNormal::bump"]}
{"id": "C100", "title": "Ray differentials are the coordinates of the neighbouring hits in the tangent plane", "statement": "The points where the two neighbouring rays meet the tangent plane differ from the hit by du*dpdu + dv*dpdv with the computed du and dv, which are defined for every hit with independent tangents and rays not parallel to the surface, and are differences of texture coordinates.", "quantifier": "all hits, all neighbouring rays", "why_tests_cant": "Exactness of the 2x2 system over all planes, and the choice of the dropped axis, cannot be sampled.", "anchors": ["src/primitives/hit_point.cpp:calculate_differentials"]}
{"id": "C101", "title": "The camera looks from its position to its target", "statement": "The matrix of the camera is a rigid motion: orthonormal right-handed axes, the third from the position to the target, the second on the side of the up vector, the first orthogonal to it, and the origin at the position; it is undefined exactly for an up vector parallel to the view.", "quantifier": "all positions, targets and up vectors", "why_tests_cant": "An orthonormality failure for some directions of view cannot be excluded by the handful of axis-aligned cameras of the tests.", "anchors": ["src/geometry/matrix4.cpp:Matrix4::set_lookAt_inverse", "src/cameras/camera.cpp:Camera::Camera"]}
{"id": "C102", "title": "Orthographic rays start at their pixel and their neighbours one pixel away", "statement": "The ray of a raster position starts on the image plane at the position with square pixels, the middle of the image at the camera and the shorter side from -1 to 1, goes along the direction of view, and the neighbouring rays are those of the positions one pixel to the right and below.", "quantifier": "all cameras, all image sizes, all raster positions", "why_tests_cant": "The only test of the neighbours uses a 2 by 2 image, the only size for which they are right.", "anchors": ["src/cameras/camera_orthographic.cpp:CameraOrthographic::CameraOrthographic", "src/cameras/camera_orthographic.cpp:CameraOrthographic::create_ray"]}
{"id": "C103", "title": "Perspective rays go through their pixel with the configured field of view", "statement": "The ray of a raster position starts at the camera and goes through the pixel; the rays through the middles of the longer sides enclose the field of view given in the configuration in degrees, the image is upright, and the neighbouring rays are those one pixel away.", "quantifier": "all cameras, all image sizes, all raster positions, all fields of view", "why_tests_cant": "The tests construct the camera in radians and never render through the configuration, so the unit of the angle is not tested.", "anchors": ["src/cameras/camera_perspective.cpp:CameraPerspective::CameraPerspective", "src/cameras/camera_perspective.cpp:CameraPerspective::create_ray", "src/parsers/config_driver.cpp:ConfigDriver::build_camera"]}
{"id": "C104", "title": "The panorama sees every direction once, with the target in the middle", "statement": "Every unit vector is the direction of a raster position of the panorama camera, of only one except for the poles; the first row is up, the last down, and the middle of the image is the direction of the target.", "quantifier": "all directions, all image sizes", "why_tests_cant": "Covering the whole sphere is a statement about a continuum.", "anchors": ["src/cameras/camera360.cpp:Camera360::create_single_ray"]}
{"id": "C105", "title": "A hit sphere reports its surface point, coordinates and tangents", "statement": "For a ray that hits the unit sphere the reported point lies on the sphere and on the ray, the texture coordinates are the ones of that point, of which there is one pair away from the seam and poles, and the tangents are the derivatives of the point with respect to the coordinates and orthogonal to the normal.", "quantifier": "all rays, all points of the sphere including the poles", "why_tests_cant": "Derivatives and uniqueness are statements over a continuum; the pole is one point that a test hits only on purpose.", "anchors": ["src/primitives/sphere.cpp:Sphere::intersect"]}
{"id": "C106", "title": "Light surfaces are sampled uniformly and their areas are right", "statement": "A point sampled on the sphere lies on it and falls in a region with probability proportional to its area; the area of a placed light used as normaliser is the area of the surface in the scene.", "quantifier": "all random pairs, all regions between two heights and two azimuths, all placements with translation, rotation and scale", "why_tests_cant": "Uniformity is a statement about measures; the areas are tested only for uniform scales.", "anchors": ["src/primitives/sphere.cpp:Sphere::sample_point", "src/primitives/sphere.cpp:Sphere::surface", "src/primitives/triangle.cpp:Triangle::surface", "src/primitives/box.cpp:Box::surface"]}
{"id": "C107", "title": "Light densities are per solid angle in the scene", "statement": "The density and distance returned with a sample of an area light, and the density evaluated for a direction, are those of uniform sampling of the surface in the scene seen from the point; a sampled emitted ray has a unit direction with the stated density.", "quantifier": "all lights placed by a similarity, all points, all sampled points", "why_tests_cant": "The formula must hold for all placements; the tests use an identity or compare with the values the code itself produced.", "anchors": ["src/lights/area_light.cpp:AreaLight::sample_visible_surface", "src/lights/area_light.cpp:AreaLight::pdf", "src/lights/area_light.cpp:AreaLight::sample_surface"]}
{"id": "C108", "title": "The density of a sphere light integrates to one", "statement": "The density reported for directions towards a spherical light, integrated over a cone, is the probability that sampling returns a direction in it; over the whole visible cone it is 1.", "quantifier": "all distances from the sphere greater than the radius, all cones around its centre", "why_tests_cant": "An integral over all directions compared with a probability is not observable from finitely many samples.", "anchors": ["src/lights/area_light.cpp:AreaLight::sample_visible_surface", "src/primitives/sphere.cpp:Sphere::sample_point"]}
{"id": "C109", "title": "A light sample is in the shadow exactly if something lies before the light", "statement": "The shadow test made for a sample of an area light reports occlusion exactly when some asset lies, along the ray, between the point and the sampled point of the light.", "quantifier": "all scenes, all states of the cache, all lights placed by a similarity, all sampled points", "why_tests_cant": "It quantifies over scenes and placements; the tests call the occlusion tester with distances of their own and never through a scaled light.", "anchors": ["src/integrators/ray_tracer.cpp:direct_l", "src/lights/area_light.cpp:AreaLight::sample_visible_surface", "src/utility/occlusion_tester.cpp:OcclusionTester::is_occluded"]}
{"id": "C110", "title": "Light and material sampling together count every direction once", "statement": "For each direction towards the chosen light, the expected weights of sampling the light and of sampling the material add up to one.", "quantifier": "all pairs of positive densities", "why_tests_cant": "It is an identity between expectations for all densities.", "anchors": ["src/integrators/ray_tracer.cpp:direct_l"]}
{"id": "C111", "title": "The sRGB curves invert each other and increase", "statement": "Decoding a component with the sRGB curve and coding it again gives the component back; decoding and coding are increasing, and 0 and 1 are fixed.", "quantifier": "all real components", "why_tests_cant": "The claim is about a continuum of values and concerns an interval narrower than a millionth around the threshold of the curve.", "anchors": ["src/utility/color.cpp:ColorXYZ::to_sRGB", "src/utility/color.cpp:ColorRGB::to_XYZ"]}
{"id": "C112", "title": "A picture pixel survives the conversion to XYZ and back", "statement": "A pixel with 8 bits per channel converted to linear XYZ and saved again has the same channels.", "quantifier": "all 2^24 colours", "why_tests_cant": "There are 16 million inputs; the tests convert about ten of them and compare floating point components with a tolerance, never the saved bytes.", "anchors": ["src/utility/color.cpp:ColorRGB::to_XYZ", "src/utility/color.cpp:ColorXYZ::to_sRGB", "src/cameras/image_film.cpp:ImageFilm::save_image"]}
{"id": "C113", "title": "The saved byte is the number of levels reached", "statement": "A saved channel is the number of multiples of 1/255 that its component reaches, at least 0 and at most 255; red, green, blue and opacity are stored in their own bytes; a pixel that received one colour with any filter weights is saved as that colour; one without samples is opaque black.", "quantifier": "all real components, all finite sequences of filter weights with a positive sum", "why_tests_cant": "It quantifies over all components and all histories of a pixel.", "anchors": ["src/cameras/image_film.cpp:ImageFilm::save_image", "src/cameras/image_film.cpp:ImageFilm::add_pixel"]}
{"id": "C114", "title": "Lights given by a temperature follow Planck's law", "statement": "The samples of a light given by its temperature are those of Planck's law divided by the largest.", "quantifier": "all positive temperatures, all pairs of samples", "why_tests_cant": "The tests compare with values that the code itself produced; the law must hold for all temperatures.", "anchors": ["src/utility/spectrum.cpp:Spectrum::Spectrum(int t)"]}
{"id": "C115", "title": "The colour of a spectrum is the same in both builds", "statement": "The XYZ colour of a spectrum is linear in it, not negative for a spectrum that is not negative, white for a constant spectrum, and the build without SPECTRAL assigns the same colour to the sampled spectra it is given.", "quantifier": "all spectra of 16 samples", "why_tests_cant": "Each build is tested against its own numbers; the comparison between the builds is nowhere made.", "anchors": ["src/utility/spectrum.cpp:Spectrum::Spectrum(const std::initializer_list<float> vals)", "src/utility/spectrum.cpp:Spectrum::to_xyz"]}
{"id": "C116", "title": "The spectrum of a colour reflects the light the colour stands for", "statement": "The spectrum assigned to an RGB colour is a mixture of white, the secondary and the primary by the ordered components for every order of them, lies between 0 and 1, and reflects as much light as the colour in the build without SPECTRAL.", "quantifier": "all colours with components from 0 to 1, all orders and ties of components", "why_tests_cant": "All orders including ties must agree; the two builds are never compared by a test.", "anchors": ["src/utility/spectrum.cpp:Spectrum::Spectrum(ColorRGB c, bool l)"]}
{"id": "C117", "title": "Refraction indices decrease with the wavelength and are defined", "statement": "The indices of Cauchy's and Sellmeier's formulas at the sampled wavelengths are defined, at least 1, and decrease with the wavelength for non-negative coefficients; the build without SPECTRAL uses a value between the smallest and the largest.", "quantifier": "all non-negative coefficients", "why_tests_cant": "A continuum of coefficients; the division by zero occurs for single values of them.", "anchors": ["src/materials/refraction.cpp:cauchy", "src/materials/refraction.cpp:sellmeier"]}
{"id": "C118", "title": "Every visible colour has an Adobe RGB", "statement": "The conversion to Adobe RGB yields numbers for every colour of light.", "quantifier": "all colours of spectra that are not negative", "why_tests_cant": "The tests convert a few colours inside of the gamut.", "anchors": ["src/utility/color.cpp:ColorXYZ::to_AdobeRGB"]}
{"id": "C119", "title": "The scene parser accepts exactly its grammar", "statement": "The generated parser (tables and engine) accepts a list of tokens if and only if the rules of config_parser.y derive it from 'file', carries out the actions of that derivation in order, reports a syntax error otherwise, stops after a number of rounds linear in the number of tokens, and never reads outside of its tables or stack. The grammar is unambiguous.", "quantifier": "all lists of tokens, all semantic actions and initial drivers", "why_tests_cant": "Infinitely many token lists; the checked-in tables could differ from the grammar in one of thousands of entries that no test scene reaches.", "anchors": ["src/parsers/config_parser.tab.cc:ConfigParser::yypact_[]", "src/parsers/config_parser.y:%start file"]}
{"id": "C120", "title": "The scene scanner returns the longest match of the first rule", "statement": "The generated scanner (tables and machine of lex.yy.cc) divides every file into tokens: each is the longest text that a rule of config_lexer.l matches there, attributed to the first such rule; nothing is lost, the division is the only one, and the machine never reads outside of its tables or buffer and never stops early, also for bytes 0 in the file.", "quantifier": "all files (lists of bytes)", "why_tests_cant": "Infinitely many texts; a wrong entry among the 2500 numbers of the tables would show up only for a particular beginning of a keyword.", "anchors": ["src/parsers/lex.yy.cc:yy_accept[444]", "src/parsers/config_lexer.l:uint"]}
{"id": "C121", "title": "What is written with spaces between is read as written", "statement": "A text that the scene scanner takes as one token when it stands alone is taken as the same token inside of a file whenever a separator (blank, tab, newline, colon, comma, bracket) follows, and punctuation is whatever follows; hence tokens written with a blank or newline after each are read back as exactly these tokens, as README.md promises (a whitespace is sufficient), and the numbers and names the README gives as examples are read as what it says.", "quantifier": "all texts of tokens, all separators, all continuations", "why_tests_cant": "The longest match could always run on into the following text; every token times every continuation cannot be tried.", "anchors": ["src/parsers/README.md:a whitespace is sufficient", "src/parsers/config_lexer.l:string (", "src/parsers/lex.yy.cc:yy_accept[444]"]}
{"id": "C122", "title": "What a scene file means", "statement": "A scene file is accepted exactly if its tokens are a sequence of the documented statements, and then the driver holds for every setting the value written last (or the documented default) and for every object of the scene (mesh, light, material, dual material, texture, child file) its description with the values written last, in the order of the file; a uniform colour wins over a texture name whatever their order. Any other file is refused, no semantic action is applied to a value of the wrong type, and files read in succession mean what they mean together.", "quantifier": "all texts, all statements, all earlier states of the driver between objects", "why_tests_cant": "The 159 actions share half-built objects in the driver; whether one of them leaks into the next object or depends on the order of keys shows only for particular sequences.", "anchors": ["src/parsers/config_parser.y:deferred_dualmats.push_back(driver.cur_dualmat)", "src/parsers/config_driver.cpp:ConfigDriver::ConfigDriver()", "src/parsers/README.md:A comma is not required between each"]}
{"id": "C123", "title": "Numbers are read as written", "statement": "The value of an integer token is the integer its sign and decimal digits denote, that of a floating point token (before rounding) the decimal fraction with its power of ten; reading a file has undefined behaviour exactly if it has, before the first unknown character, an integer that is not an int, even where a floating point number is asked for.", "quantifier": "all texts matched by the number rules, all files", "why_tests_cant": "Signs, leading zeros, missing integer parts and exponents combine, and the overflow happens only beyond 2147483647.", "anchors": ["src/parsers/config_lexer.l:make_UINT(atoi(yytext),loc)", "src/parsers/config_lexer.l:make_FLOAT(atof(yytext),loc)", "src/parsers/README.md:A floating point number"]}
{"id": "C124", "title": "Chained files", "statement": "A scene is accepted exactly if its file and all existing children are; the objects of the scene are those of all files together in order, children of children are ignored, and the renderer gets the settings of all files together, checked, as README.md says (every keyword works the same way in children and may overwrite the parent's settings).", "quantifier": "all files, all children and their contents", "why_tests_cant": "The effect depends on which of the files sets what and on when the renderer is made.", "anchors": ["src/parsers/config_driver.cpp:std::vector<std::string> consolidated_children = children;", "src/parsers/README.md:overwrite parent's settings", "src/parsers/config_driver.cpp:r->inherit_camera(build_camera());"]}
{"id": "C125", "title": "Textures by name", "statement": "After the texture statements the library has, under each name, the picture, shift and scaling of the first statement of this name whose file is an image, with the filter in force; a reference gets the texture of this name, or else the file of this path, or else the default texture.", "quantifier": "all lists of texture statements, all file systems, all names", "why_tests_cant": "Depends on which names coincide, on the path functions and on what was loaded before.", "anchors": ["src/parsers/config_driver.cpp:const TextureImage* ConfigDriver::load_texture(const std::string& path)", "src/textures/texture_image.cpp:if(TexLib.contains_map(src.absolute_path()))", "src/parsers/README.md:The name of the texture as it will appear in the Texture Library"]}
{"id": "C126", "title": "Materials are built as described", "statement": "A material is isotropic iff the anisotropy is unset or equals the roughness, specular iff it is isotropic without roughness, has the chosen distribution or the anisotropic one, and all its parameters are finite and never 0 where they are divided by; each name has the first material or, failing that, dual material of this name, with the textures and parts it names.", "quantifier": "all materials with roughness and anisotropy in the documented range; parameters: all numbers; all lists of materials and dual materials", "why_tests_cant": "Four kinds, three distributions and two real parameters with exceptional values; tests check a few.", "anchors": ["src/parsers/config_driver.cpp:void ConfigDriver::build_materials()", "src/parsers/config_driver.cpp:void ConfigDriver::build_dualmaterials()", "src/parsers/README.md:the surface is assumed isotropic", "src/materials/material_library.cpp:void MaterialLibrary::add_inherit"]}
{"id": "C127", "title": "Objects and lights are placed as described", "statement": "The scene has one object for each world and light statement that names a known mesh, with the materials, emission and mask of the statement, scaled, rotated about the x-, y- and z-axis by the given degrees and moved; at most 32 lights count; a mask that cannot be found is disabled.", "quantifier": "all lists of statements, all vectors, all libraries", "why_tests_cant": "Real-valued rotations and unbounded lists of objects; tests rotate by nothing.", "anchors": ["src/parsers/config_driver.cpp:void ConfigDriver::build_meshes()", "src/parsers/config_driver.cpp:transform = position_matrix*rotation_matrix*scale_matrix;", "src/utility/scene.cpp:if(lights.size()<_MAX_LIGHTS_)", "src/parsers/README.md:The rotation of the model in the scene, in degrees", "src/textures/mask_boolean.cpp:return masked != inverted;"]}
{"id": "C128", "title": "A syntax error is found at the first token that cannot be right", "statement": "Reading a scene file, the parser stops at token number k exactly if the k tokens before it begin some correct file of the grammar in config_parser.y, and no correct file begins with the k+1 tokens; it does not stop exactly if the tokens are those of a correct file. States that reduce without looking at the next token therefore never hide an error or shift it to a later token, and the parser with its actions rejects exactly the files in which it stops.", "quantifier": "All lists of tokens (the end of the file only as the last one), of any length; for the parser with actions: all values of the types of their tokens and every state of the driver.", "why_tests_cant": "The parser decides with tables of 298 states and default reductions; a wrong entry shows only for particular prefixes, and the set of possible next tokens after every prefix is infinite.", "anchors": ["src/parsers/config_driver.cpp:void ConfigDriver::error(const yy::location& l, const std::string& m)", "src/parsers/config_parser.y:file", "src/parsers/config_driver.cpp:parser.parse()"]}
{"id": "C129", "title": "The report of an error shows the right line, column and token", "statement": "For the first error of a scene file, the report names the line and the column of the last byte of the wrong token (or unknown character), shows the line of the file with long lines shortened at either side by three dots, and underlines the token; a token of more than 123 bytes gets only its position, and if the file ends too early, the position of its end is reported. The report is written into its two buffers of 128 bytes, and no byte is printed that was not written. The code does this only if the words before the error are not `bump` and contain no byte 0 and no end of line inside of a string, the line has no carriage return before it, the token has at most 64 or more than 123 bytes or ends before column 124, the line has an end, and the file is the first one that is read; in each other case it shows the wrong text or position, or the behaviour is undefined.", "quantifier": "All files; every position of the first error.", "why_tests_cant": "The result depends on the lengths of the lines and tokens around the error; the undefined behaviour needs a token of 65 to 123 bytes behind column 123, or a second file.", "anchors": ["src/parsers/config_lexer.l:int ConfigDriver::get_line(char* buf,int len)", "src/parsers/config_driver.cpp:under[end_col-offset] = 0;", "src/parsers/config_lexer.l:#define UPDATE_POS current_pos+=strlen(yytext)", "src/parsers/config_lexer.l:void ConfigDriver::scan_begin()"]}
{"id": "C130", "title": "Messages are printed with the arguments that their formats need", "statement": "Every call that prints a message with a format (115 calls of Console.notice, warning, severe, critical and sprintf) gives exactly the arguments, of the right types, for the conversions of its format, so that the message is the text of the format with every argument at its place, for all values; the messages that are written into buffers fit into them. Three calls violate this and are undefined behaviour for all arguments: an output file that is a folder, a child file that does not exist, and the report of every error in a scene file that shows the line.", "quantifier": "All calls in src (not Windows, not the tests), all values of the arguments; for buffers: all int, all characters, all durations.", "why_tests_cant": "In the tests, the console only counts messages and does not print them, so that no format is ever used; the errors show only in the released program, when the errors occur.", "anchors": ["src/localization.h:MESSAGE_OUTPUT_ISFOLDER", "src/cameras/image_film.cpp:Console.critical(MESSAGE_OUTPUT_ISFOLDER);", "src/parsers/config_driver.cpp:Console.severe(MESSAGE_INPUT_ERROR, file.c_str());", "src/utility/console.cpp:vfprintf(stderr, format, args);", "src/renderer.cpp:sprintf(endmsg, MESSAGE_RENDERTIME, elapsed_formatted);"]}
{"id": "C131", "title": "A supported picture format is supported by every operation", "statement": "Checking, measuring, reading and writing a picture, and the question whether an extension is supported, agree for every extension: each is handled by the module of its format exactly if the program was built with it. Violated exactly by builds with one of libtiff and libjpeg: with libtiff alone, a TIFF is supported, valid and readable, but its size is never determined (and textures use the uninitialised size); with libjpeg alone img_dimensions calls a function that does not exist.", "quantifier": "All extensions (any string), all eight choices of libraries.", "why_tests_cant": "The tests run in one build with all libraries installed; the wrong macro makes no difference there.", "anchors": ["src/utility/imageio/imageio.c:char img_dimensions(const char* name, const char* ext,", "src/utility/imageio/imageio.c:#ifdef JPEG_FOUND", "CMakeLists.txt:FIND_PACKAGE(TIFF)"]}
{"id": "C132", "title": "Pictures written with a library are read back as written", "statement": "The rows given to libpng, libtiff and libjpeg are the colours of the pixels from top to bottom and from left to right. What libpng and libtiff deliver for such rows (opaque alpha for PNG, a raster from bottom to top for TIFF) is read back as the same picture with the same colours, opaque; pictures with an alpha channel give every pixel its own four channels. TIFF files with other numbers of channels are refused without touching the buffer.", "quantifier": "All sizes and all pixels, under the documented behaviour of the libraries.", "why_tests_cant": "Tests compare a few small fixed pictures; an exchange of rows or channels that these do not show, or only for non-square pictures, is not seen.", "anchors": ["src/utility/imageio/png.c:values[index_rgb] |= rows[y][x*4+2] << 24;", "src/utility/imageio/tiff.c:int tif_index = (height-1-y)*width+x;", "src/utility/imageio/jpg.c:current_row = data_nc+jpg_img.next_scanline*3*width;"]}
{"id": "C133", "title": "A TIFF that could not be written completely is reported", "statement": "If tiff_write reports success, every row has been written. Violated: when writing the last row fails, the counter has already been increased and success is reported; failures in earlier rows are reported.", "quantifier": "All pictures, and all rows at which writing can fail first.", "why_tests_cant": "A failure of the library in the middle of a picture (a full disk) is not provoked by tests.", "anchors": ["src/utility/imageio/tiff.c:if(TIFFWriteScanline(fout, row, y++, 0)<0)", "src/utility/imageio/tiff.c:retval = y == height;"]}
{"id": "C134", "title": "Samples of pictures are read inside of their buffers", "statement": "Every JPEG in grey or colour is decoded, every pixel from its own samples, without a read outside of the row that was allocated for it; the PNG signature is compared with bytes of the file. Proved for colour. Violated by every grey JPEG (the row has one byte for a pixel but three are read), by pictures with four components (wrong samples), and by files named .png with less than 8 bytes (uninitialised bytes are compared).", "quantifier": "All JPEG pictures as delivered by libjpeg (any size, 1, 3 or 4 components); all files for the PNG signature.", "why_tests_cant": "Reading behind the end of an allocated row is not noticed without instrumentation, and the tests have no grey picture.", "anchors": ["src/utility/imageio/jpg.c:values[i] |= row[x*3+2] << 24;", "src/utility/imageio/jpg.c:row_len = jpg_img.output_width*jpg_img.output_components;", "src/utility/imageio/png.c:fread(header, 1, 8, fin);"]}
{"id": "C135", "title": "The rendered picture is saved under a name with a supported extension", "statement": "If the program accepts the output path, the picture is written at the end in the format of its extension: under the given name if the extension is supported, otherwise with .ppm added; a folder, or a parent folder without write permission, stops the program at the start. Proved for every path that names a file. Violated by paths that end with a separator and name no folder: the output becomes the hidden file .ppm in a folder that does not exist, which has no extension, and the finished rendering is not saved, without a message.", "quantifier": "All builds, file systems, working directories and file names; absolute paths with any folders (under the conditions of C48).", "why_tests_cant": "Tests try a few names; the loss of the picture shows only after a complete rendering with an unusual path.", "anchors": ["src/cameras/image_film.cpp:strcat(tmp_buf, \".ppm\");", "src/cameras/image_film.cpp:bool supported = img_supported(output.extension());", "src/renderer.cpp:Renderer::film.save_image();"]}
{"id": "C136", "title": "The progress bar shows the share of the jobs taken", "statement": "The bar always has twenty characters, hashes before dashes; the percentage is between 0 and 100, never goes back while jobs are taken, is the exact share up to rounding, and is 100 exactly when no job is left. The time left is that of a constant pace.", "quantifier": "for every number of jobs up to 2^24 and every number of jobs left, with the roundings of binary32", "why_tests_cant": "The bar is printed from a thread once a second and no test looks at it; the rounding errors show only for special numbers of jobs, and the undefined conversion only if no job was taken before the first print.", "anchors": ["src/utility/console.cpp:while(i<(int)done)", "src/utility/console.cpp:done *= 20;", "src/renderer.cpp:done = (float)(jobs_no-remaining)/(float)jobs_no;", "src/renderer.cpp:eta = (time_t)((float)(current_time-start_time)/(jobs_no-remaining)*"]}
{"id": "C137", "title": "The queue of jobs is shared safely", "statement": "In every interleaving of the workers, the listener and the main thread: accesses of the queue do not race, no job is taken from an empty queue, every job is rendered by exactly one worker, there is no deadlock, and the picture is saved only after all jobs.", "quantifier": "for every number of workers, every list of jobs and every interleaving", "why_tests_cant": "Interleavings cannot be forced in a test, and races show only under rare timings.", "anchors": ["src/renderer.cpp:if(jobs->empty())", "src/renderer.cpp:todo = jobs->top();", "src/renderer.cpp:jobs->pop();", "src/renderer.cpp:remaining = jobs->size();", "src/renderer.cpp:while(alive)"]}
{"id": "C138", "title": "Every job has its own random numbers", "statement": "The generator of a job is never seeded with zeros only, and no two jobs use the same generator.", "quantifier": "for all results of rand() below 2^31 and all numbers of jobs of a worker", "why_tests_cant": "The seeds depend on the time and on the schedule; the bad seeds are too rare to be met in a test.", "anchors": ["src/renderer.cpp:WELLseed[i] = ((unsigned int)rand()+(unsigned int)rand());", "src/renderer.cpp:WELLseed[i]++;", "src/renderer.cpp:int debug_seed = (int)rand();"]}
{"id": "C139", "title": "A mesh stores its triangles in order and in bounds", "statement": "However many triangles are added, a mesh holds them in the order of the calls up to the limit, writes nothing outside of its array, never has more than twice the room it needs, and after finalize has exactly its triangles.", "quantifier": "for every initial size, every limit and every list of triangles", "why_tests_cant": "Tests add a few triangles to meshes of a few sizes; a write behind the array may go unnoticed.", "anchors": ["src/primitives/mesh.cpp:if(Mesh::count == Mesh::alloc) //need to realloc a bigger area", "src/primitives/mesh.cpp:unsigned int newsize = alloc << 1<_MAX_TRIS_?alloc << 1:_MAX_TRIS_;", "src/primitives/mesh.cpp:if(Mesh::alloc>Mesh::count)"]}
{"id": "C140", "title": "Shapes, arrays and assets are freed exactly once", "statement": "No shape, array of materials or asset is freed twice or used after it was freed, and everything allocated for a scene is freed at the end.", "quantifier": "for all .obj files (names of meshes), all objects of the scene and all orders of the hash maps", "why_tests_cant": "Double frees and leaks depend on the combination of names, uses and orders of hash maps; tests use small scenes with one order.", "anchors": ["src/parsers/config_driver.cpp:delete shape_it->second.mesh;", "src/parsers/config_driver.cpp:insertme.association = (unsigned char*)malloc(p.get_face_no());", "src/parsers/config_driver.cpp:mesh_o.association = (unsigned char*)malloc(1);", "src/utility/scene.cpp:delete shape_it->second;", "src/utility/scene.cpp:Console.warning(MESSAGE_MAXLIGHTSNUMBER, _MAX_LIGHTS_);"]}
{"id": "C141", "title": "Whether a masked point is hit depends on the ray and the scene", "statement": "A ray hits a masked surface or passes through it depending on the surface, its mask and the ray only: not on the rays rendered before by the same thread, and not on uninitialised memory.", "quantifier": "for all triangles, masks, rays and sequences of rays of a worker", "why_tests_cant": "What is in the reused or uninitialised hit point depends on the schedule of the jobs and on the stack; the differences are single pixels at the borders of the masks.", "anchors": ["src/primitives/triangle.cpp:tmp.dv = h->du;", "src/primitives/triangle.cpp:tmp.differentials = h->differentials;", "src/primitives/sphere.cpp:tmp.differentials = hit->differentials;", "src/renderer.cpp:HitPoint h;", "src/textures/texture_image.cpp:if(hit->differentials)"]}
{"id": "C142", "title": "Missing folders are created with their parents", "statement": "mkdirs makes exactly the missing folders on the way that can be made, changes nothing else, returns whether the path was made, keeps its string, and never writes outside of it. If only permissions are in the way, it makes everything or nothing.", "quantifier": "for all file systems, all paths in normal form and all reasons to fail", "why_tests_cant": "Tests use a few paths in the temporary folder; failures in the middle of a path need file systems that tests do not set up.", "anchors": ["src/utility/file.cpp:while(index<len && absolute[++index] != File::PATH_SEPARATOR);", "src/utility/file.cpp:absolute[len] = 0; //otherwise last char will become path separator", "src/utility/file.cpp:created = false;"]}
{"id": "C143", "title": "A File knows whether its path is a folder", "statement": "is_folder and is_file say what is at the path of the object at the time the object was made or mkdirs was called.", "quantifier": "for all file systems and paths, for new objects, copies and parents", "why_tests_cant": "Tests ask new objects; the parent of a file is never asked.", "anchors": ["src/utility/file.cpp:return statres && S_ISDIR(fileinfo.st_mode);", "src/utility/file.cpp:return statres && S_ISREG(fileinfo.st_mode);", "src/utility/file.cpp:File retval(*this);", "src/utility/file.cpp:File::statres = old_obj.statres;"]}
{"id": "C144", "title": "A folder lists its entries", "statement": "ls returns one File for each entry of the folder except . and .., in the order of the system, with its path and what is there; the buffer is large enough for every name.", "quantifier": "for all folders, names and lengths of names", "why_tests_cant": "Tests list one folder with short names.", "anchors": ["src/utility/file.cpp:if((len+1+2+strlen(element->d_name))>=allocated)", "src/utility/file.cpp:strcat(element_name, element->d_name);", "src/utility/file.cpp:if(strcmp(element->d_name, \".\") != 0 &&"]}
{"id": "C145", "title": "Copies of a File are independent", "statement": "After an assignment or a copy both objects have the same path, name and extension in memory of their own, each can be destroyed without harm to the other, and no memory is lost.", "quantifier": "for all heaps and all pairs of objects", "why_tests_cant": "A leak or a read of uninitialised memory does not change the result of a test.", "anchors": ["src/utility/file.cpp:File& File::operator=(const File& old)", "src/utility/file.cpp:strcpy(absolute, old.absolute);", "src/utility/file.cpp:free(File::absolute);"]}
{"id": "C146", "title": "Random generator has the full period", "statement": "From every seed but zero the words drawn repeat after 2^1024-1 draws and not earlier; all such seeds run through the same cycle; the object itself returns to its state after 32(2^1024-1) draws and not earlier.", "quantifier": "all seeds but zero, all shifts of the sequence", "why_tests_cant": "A period of 2^1024-1 cannot be run through; it rests on a polynomial of degree 1024 being primitive.", "anchors": ["src/utility/wellrng.cpp:WELLrng::getNumber", "src/utility/wellrng.hpp:#define WELL_R 32"]}
{"id": "C147", "title": "Random numbers are uniformly distributed", "statement": "Over a period every tuple of up to 32 consecutive words comes equally often (the tuple of zeros once less), so that the returned numbers follow the uniform distribution up to their rounding to float: the part of numbers at most m/2^32 differs from it by at most 129/2^32, and 1.0 is returned 128*2^992 times.", "quantifier": "all seeds but zero, all tuples of up to 32 words, all thresholds", "why_tests_cant": "Statistical tests look at a vanishing part of the period and accept small errors.", "anchors": ["src/utility/wellrng.hpp:following an uniform", "src/utility/wellrng.cpp:WELLrng::getNumber", "src/utility/wellrng.cpp:return ((float) state[state_i] * 2.32830643653869628906e-10f);"]}
{"id": "C148", "title": "One reflecting layer: sampling, evaluation and density agree", "statement": "A sampled direction of a material with one reflecting layer lies on the side of the surface from which it is seen, and the value and density returned with it are those of value() and pdf() for the same directions; specular layers take part only if asked for; a dual material behaves in every respect as one of its two materials.", "quantifier": "all orthonormal shading frames, directions, random numbers, textures and layers", "why_tests_cant": "Sampling and evaluation differ only on a set of directions that a picture test averages away.", "anchors": ["src/materials/single_brdf.cpp:if(wiW->dot(h->normal_h)*woW->dot(h->normal_h)>0)//reflected ray", "src/materials/single_brdf.cpp:retval = bdf->sample_value(&wo_shading, &wi_shading, r1, r2, pdf);", "src/materials/single_brdf.cpp:if(!matchSpec && bdf->is_specular())", "src/materials/dual.cpp:first->gen_shading_matrix(hp, matrix, normal);"]}
{"id": "C149", "title": "Light samples of points that are not shown are not used", "statement": "When the ray to a sampled point of a light misses the light (hole of the mask, rounding) or meets its back, the sample adds nothing; a sample that is used comes from a visible front point, with its colour, its finite positive density and its distance.", "quantifier": "all binary32 origins, directions, areas and colours with infinities and NaN", "why_tests_cant": "The density computed for such points is an infinity or NaN that depends on overflow, and the comment in the code says the case never happens.", "anchors": ["src/lights/area_light.cpp:AreaLight::model->intersect(&ray, distance, &hit, &mask);", "src/lights/area_light.cpp:if(std::isinf(*pdf))", "src/integrators/ray_tracer.cpp:if(lightpdf>0 && !direct_l.is_black())"]}
{"id": "C150", "title": "Weights of light and material sampling", "statement": "For every two positive densities the weights of the light sample and of the material sample are numbers between 0 and 1 that add up to one up to rounding.", "quantifier": "all pairs of positive binary32 densities", "why_tests_cant": "The squares leave the range of float only for tiny or far lights, where one pixel becomes NaN.", "anchors": ["src/integrators/ray_tracer.cpp:float weight = (lightpdf*lightpdf)/", "src/integrators/ray_tracer.cpp:w = (bsdfpdf*bsdfpdf)/(bsdfpdf*bsdfpdf+lightpdf*lightpdf);", "src/lights/area_light.cpp:*pdf /= (absdot(normal, -(*wi))*AreaLight::area);"]}
{"id": "C151", "title": "The ray-box test in binary32", "statement": "Larger boxes are never rejected when a smaller box inside is accepted, cutting a box leaves no gap, and the answer is the exact one for a box whose faces are moved by at most 2^-22 of their distance from the origin of the ray. A ray that meets a box is accepted.", "quantifier": "all binary32 rays and boxes, with rounding, overflow, signed zeros and infinite inverses", "why_tests_cant": "Rays that pass within a rounding error of an edge are a negligible part of any test set.", "anchors": ["src/geometry/AABB.cpp:mint = (bounds[p->isXInvNeg].x-r->origin.x)*p->inverseX;", "src/geometry/AABB.cpp:if(mint>maxyt || minyt>maxt)", "src/geometry/ray.hpp:inverseX = 1.f/v.direction.x;"]}
{"id": "C152", "title": "Traversal of the kd-tree in binary32", "statement": "With every distance computed in binary32 the traversal of the scene's kd-tree never overruns its stack or arrays, loses no asset whose own box is accepted, and returns the closest hit.", "quantifier": "all scenes with boxes of finite float coordinates, all finite rays in no face plane, all splits, every sort and every answer of the assets", "why_tests_cant": "Rounding makes a split plane appear on the wrong side of a box face for a few rays per image, if ever.", "anchors": ["src/accelerators/kdtree.cpp:float planet = (n->getSplit()-r->origin[axis]);", "src/accelerators/kdtree.cpp:if(planet>maxt || planet<=0)", "src/accelerators/kdtree.cpp:if(bestdistance<mint) //a closer intersection has been found"]}
{"id": "C153", "title": "The BVH built in binary32 holds every triangle", "statement": "The tree built with surfaces computed in binary32 holds each triangle of the mesh exactly once, with the right boxes, and the construction throws no exception.", "quantifier": "all meshes with finite float coordinates, all Morton codes", "why_tests_cant": "Surfaces overflow only for scenes that no test uses, and the result is a mesh with missing triangles.", "anchors": ["src/accelerators/bvh.cpp:float best_area = INFINITY;", "src/accelerators/bvh.cpp:uint32_t retval = 0; //if size == 1 return myself", "src/geometry/AABB.cpp:return 2.0f*(diag.x*diag.y+diag.x*diag.z+diag.y*diag.z);"]}
{"id": "C154", "title": "Construction and traversal of the BVH in binary32", "statement": "A mesh whose BVH is built and traversed in binary32 reports the closest hit among the triangles whose own box is accepted not after the hit.", "quantifier": "all meshes with float coordinates up to 2^61, all Morton codes, all finite rays in no face plane, all triangle tests", "why_tests_cant": "Needs every combination of roundings of all boxes on a path through the tree.", "anchors": ["src/accelerators/bvh.cpp:if(node->bounding.intersect(r, &rp, &dmin, &dmax) &&", "src/accelerators/bvh.cpp:!(found && dmin>*distance))//already found a closer one"]}
{"id": "C155", "title": "Metals have the colour of their constants", "statement": "Every metal of the table has positive constants at all wavelengths, reflects a fraction of the light from every angle, and gold and copper reflect more red than green and more green than blue.", "quantifier": "all 29 metals, all angles, all wavelengths, both builds (SPECTRAL on and off)", "why_tests_cant": "No test renders a metal and looks at its hue; a wrong order of the three channels gives a plausible picture with another colour.", "anchors": ["src/materials/metals.hpp:const Metal METALS[METAL_MAX] = {", "src/parsers/config_driver.cpp:ior = Spectrum(METALS[mat->elem].n);", "src/parsers/config_driver.cpp:absorption = Spectrum(METALS[mat->elem].k);"]}
{"id": "C156", "title": "Normalising a vector in single precision", "statement": "For every finite vector, Vec3::normalize makes a vector whose length is one up to the tolerance of is_normalized, in the same direction, and normalising again changes nothing.", "quantifier": "all vectors of three binary32 numbers; IEEE 754 arithmetic with rounding, overflow and underflow", "why_tests_cant": "The unit tests normalise a few vectors of ordinary size; squares overflow above 2^64 and vanish below 2^-75, and no test looks at every rounding.", "anchors": ["src/geometry/vec3.cpp:if(len2>1.f-1E-5f && len2<1.f+1E-5f)", "src/geometry/vec3.hpp:bool is_normalized() const"]}
{"id": "C157", "title": "Fresnel terms in single precision", "statement": "The reflectances of glass and metal computed in binary32 are numbers between zero and one: no division by zero, NaN or gain arises from rounding, from any angle, also for directions that are slightly longer than one.", "quantifier": "all binary32 cosines and indices in the stated ranges, all metals of the table at all wavelengths; every rounding", "why_tests_cant": "A quotient that is NaN for one cosine out of 2^32 shows as a black or white pixel; tests evaluate a handful of angles.", "anchors": ["src/materials/fresnel_conditions.cpp:if(sinthetat>=1.f) //Total internal reflection", "src/materials/reflection.cpp:if(sinthetat>1.f)", "src/materials/reflection.cpp:return eval/fabsf(wo->z);"]}
{"id": "C158", "title": "Refraction in single precision", "statement": "A ray refracted in binary32 continues on the other side of the surface, never along it, with a finite weight that is not negative; otherwise the result is total reflection.", "quantifier": "all binary32 directions up to the tolerance of normalize, all indices between 1/1024 and 1024; every rounding", "why_tests_cant": "Near the critical angle the transmitted cosine is the square root of a difference of nearly equal numbers; tests use ordinary angles.", "anchors": ["src/materials/refraction.cpp:float costhetat = sqrtf(1.f-sintransmitted2);"]}
{"id": "C159", "title": "The exit status tells whether a picture was written", "statement": "A run of the program ends with status 0 exactly if the scene was accepted and the picture was written; otherwise with status 1 and no picture. In a picture that is written every pixel was rendered by exactly one tile.", "quantifier": "all command lines, all contents of the scene file and its children, all file systems and outcomes of writing", "why_tests_cant": "No test runs main; a build script or render queue relies on the status, and a failed write after hours of rendering looks like success when the result of save_image is dropped.", "anchors": ["src/main.cpp:int retval = renderer->render(&scene);", "src/renderer.cpp:Renderer::film.save_image();", "src/parsers/config_driver.cpp:check_resolution();"]}
{"id": "C160", "title": "Triangles are hit where they are, in single precision", "statement": "For finite inputs of moderate size: a ray that passes inside a triangle by more than the rounding allows hits it, with coordinates and a distance that differ from the exact ones by at most that amount; a ray that passes outside by more than that amount does not hit it. What is reported for a hit are numbers: coordinates in [0,1] and a distance between the minimum and the limit.", "quantifier": "all finite binary32 rays and triangles with components in 2^-30..2^30, with an error bound that depends on the exact determinant", "why_tests_cant": "The failing rays are rare: a crack between two triangles shows as single dark pixels, and a NaN distance makes every later hit win; the unit tests use a handful of round numbers.", "anchors": ["src/primitives/triangle.cpp:float invdet = 1.f/det;", "src/primitives/triangle.cpp:if(v<0.f || u+v>1.f)", "src/primitives/triangle.cpp:float dist = ca.dot(qv)*invdet;"]}
{"id": "C161", "title": "A sphere has the size the scene gives it", "statement": "A ray hits an instance of the sphere with radius s exactly if it meets the set of points at the distance s from the centre within the limits, at the first such point.", "quantifier": "all uniformly scaled, turned and moved spheres, all rays with a direction of length one, all limits", "why_tests_cant": "The tolerance of 1e-4 is on a discriminant in object space; with the unit spheres of the tests it is invisible, with a radius of 200 the sphere looks 1.4 times as large.", "anchors": ["src/utility/utility.hpp:if(delta<=0 && delta+1e-4f>=0)", "src/primitives/sphere.cpp:if(equation2(a, b, c, &sol1, &sol2))", "src/primitives/asset.cpp:Ray ray_obj = worldToObj**ray_world;"]}
{"id": "C162", "title": "Spheres are hit where they are, in single precision", "statement": "A ray is reported to hit the unit sphere exactly if some point of it that is not before the least distance is in the sphere; the reported distance is a number, and the point there is on the surface up to a bound on the rounding.", "quantifier": "all finite rays with directions and origins between 2^-20 and 2^20, all masks, all limits", "why_tests_cant": "Cancellation in b*b-4ac loses spheres that are a few thousand radii away, on single rays; tests use one sphere close to the camera.", "anchors": ["src/utility/utility.hpp:float delta = b*b-4.0f*a*c;", "src/utility/utility.hpp:*sol2 = c/q;", "src/primitives/sphere.cpp:float c = originVec.dot(originVec)-1.f;", "src/primitives/sphere.cpp:else if(!std::isnan(sol2))"]}
{"id": "C163", "title": "Microfacet terms and sampled directions are numbers in their ranges, in single precision", "statement": "For every roughness and every random number in [0, 1] the sampled half vector of GGX and Beckmann and the sampled diffuse direction are made of numbers, have length one up to a few rounding errors and lie on the side of the outgoing direction; the masking term is in [0, 1], the density is not negative and not NaN, and both are within a stated relative error of the exact terms.", "quantifier": "all binary32 cosines, squared roughnesses and random numbers in [0, 1]; cosines and sines of the library within 4*2^-24 of a unit vector", "why_tests_cant": "The failures need the random number 1.0 together with a roughness below 2e-4, or cosines below 2^-75; statistical tests of the distributions never draw them, and a NaN pixel is one in millions.", "anchors": ["src/materials/microfacet_distributions.cpp:const float cos2t = (1.f-r0)/(r0*(a2-1)+1);", "src/materials/microfacet_distributions.cpp:return 2/(1+sqrtf(1+a2*sin2/cos2));", "src/materials/microfacet_distributions.cpp:return a2/(sqr_term*cos2t*cos2t*ONE_PI);", "src/materials/microfacet_distributions.cpp:const float l = log(1.f-r0);", "src/materials/bdf.cpp:wi->z = sqrtf(max(0.f, 1.f-wi->x*wi->x-wi->y*wi->y));"]}
{"id": "C164", "title": "Pixels are developed without undefined behaviour, near the exact mean and independently of the schedule, in single precision", "statement": "Saving a pixel is defined whatever its sums are; every channel becomes a byte that follows the level of the channel; the developed colour is within (3n+4)*2^-24 of the weighted mean of its n samples, in whatever order the threads add them; the same samples give the same bytes in every order; and a sample that is not a number does not spoil the pixel.", "quantifier": "all lists of samples and weights of a pixel, all orders, all results of powf", "why_tests_cant": "The order of additions changes from run to run and shows in the last bits only; a NaN sample is one in millions, and the tests compare single colours with tolerances.", "anchors": ["src/cameras/image_film.cpp:if(color.r<0)color.r = 0;", "src/cameras/image_film.cpp:float weight = 1.f/value.samples;", "src/cameras/image_film.cpp:(uint32_t)::min((::max(0.f, rgb.r)*0xFF), 255.0f) << 8;", "src/utility/color.cpp:ColorRGB ColorXYZ::to_sRGB() const"]}
{"id": "C165", "title": "Samples reach the pixels of the filter support with weights that are numbers, in single precision", "statement": "For every position on the film the conversions of the update range to int are defined, only pixels of the image in the support of the filter are updated, the offset given to the filter is within its range and near the exact offset, and the weight of every updated pixel is a number: in [0, 1] for the tent and the Gaussian, near the exact polynomial for Mitchell, bounded for Lanczos.", "quantifier": "all positions on films of up to 65536 pixels, all pixels, all filter parameters", "why_tests_cant": "Rounding moves a sample over a pixel border for single positions among millions only, and the tests of the filters use few offsets and default parameters.", "anchors": ["src/cameras/image_film.cpp:float weight = filter->weight(x-centre_x, y-centre_y);", "src/samplers/filter_tent.cpp:float FilterTent::weight(float offset_x, float offset_y) const", "src/samplers/filter_gaussian.cpp:return max(0.f, expf(-alpha*offset_x*offset_x)-precomputed_exp_x)*", "src/samplers/filter_mitchell.cpp:resx *= DENOMINATOR;", "src/samplers/filter_lanczos.cpp:lanczos = sinf(resx)/resx;"]}
{"id": "C166", "title": "Vector and matrix operations may be given the same object twice", "statement": "Operations that write through a reference or a pointer give the documented result whether their arguments are different objects or the same one, and change no other object.", "quantifier": "all operations of the geometry classes with an output reference, all contents, all ways in which arguments coincide", "why_tests_cant": "Tests call every operation with different variables; a shared argument compiles without a warning and gives plausible numbers.", "anchors": ["src/geometry/vec3.cpp:void Vec3::cross(const Vec3& target, Vec3* output) const", "src/geometry/vec3.cpp:bool Vec3::refract(const Vec3& interface, float eta)", "src/geometry/matrix4.cpp:void Matrix4::transpose(Matrix4* output) const", "src/geometry/matrix4.cpp:void mul(const Matrix4* input1, const Matrix4* input2, Matrix4* output)"]}
{"id": "C167", "title": "Comparisons and bounds of vectors, points and matrices are consistent in single precision", "statement": "Equality of geometry objects is symmetric, reflexive and the opposite of inequality, with a known tolerance; clamp, saturate, max and min put every member between the bounds; for every binary32 value including NaN and infinities.", "quantifier": "all members in binary32, NaN and infinities included", "why_tests_cant": "The tests compare finite vectors of ordinary size; infinite and NaN members arise in empty boxes and failed normalisations only.", "anchors": ["src/geometry/vec3.cpp:return std::fabs(Vec3::x-v.x)<=FLT_EPSILON &&", "src/geometry/vec3.cpp:return std::fabs(Vec3::x-v.x)>FLT_EPSILON ||", "src/geometry/point3.cpp:bool Point3::operator==(const Point3& p) const", "src/geometry/matrix4.cpp:bool Matrix4::operator!=(const Matrix4& mat) const", "src/geometry/vec3.cpp:void Vec3::clamp(const Vec3& min, const Vec3& max)"]}
{"id": "C168", "title": "Placed objects stay in their boxes and affine maps stay affine in single precision", "statement": "In binary32 the matrices of the scene keep the last row 0 0 0 1, points are mapped to numbers with a known accuracy, every mapped point of a shape lies in the box computed for the hierarchy, and the inverse used for rays is the affine inverse up to a known error.", "quantifier": "all positions, angles and scales in the stated ranges in binary32, all points of sphere, box and triangle", "why_tests_cant": "A point outside its box by one unit in the last place is missed only by rays that pass exactly there; the tests use round numbers, for which all operations are exact.", "anchors": ["src/geometry/matrix4.cpp:Point3 Matrix4::operator*(const Point3& p) const", "src/geometry/matrix4.cpp:bool Matrix4::inverse(Matrix4* output) const", "src/primitives/sphere.cpp:AABB Sphere::compute_AABB(const Matrix4* transform) const", "src/primitives/triangle.cpp:AABB Triangle::compute_AABB(const Matrix4* transform) const"]}
{"id": "C169", "title": "Rough materials have values in single precision", "statement": "In binary32 the constants of Oren-Nayar, its factor, and the density, shadowing and sampled half vectors of Blinn, Beckmann and the anisotropic GGX are numbers in the ranges the integrator needs, never NaN.", "quantifier": "all roughnesses the parser lets pass, all directions of about unit length in binary32, all powf and expf with the right ranges, all random numbers in [0, 1]", "why_tests_cant": "NaN appears only for directions almost along the surface, or when a square underflows; a single NaN sample blackens its pixel, but the tests compare a few fixed directions.", "anchors": ["src/materials/oren_nayar.cpp:maxcos = max(0.0f, cosphiin*cosphiout+sinphiin*sinphiout);", "src/materials/microfacet_distributions.cpp:return exp/(ONE_PI*cost2*cost2*a2)*exp;", "src/materials/microfacet_distributions.cpp:float res = INV_PI*inv_ax*inv_ay*inv_cos2*inv_cos2*(1.f/sq_term);", "src/materials/microfacet_distributions.cpp:return (3.535f*c+2.181f*c*c)/(1+2.276f*c+2.577f*c*c);"]}
{"id": "C170", "title": "Frames of hit points and cameras are orthonormal in single precision", "statement": "In IEEE single precision, the shading frame built from a unit tangent and a unit normal that are nearly perpendicular is right handed and orthonormal up to rounding; a unit direction taken into the frame and back, or out of it and back, returns up to 4e-4 (and the defect of the two vectors), and the sign of its third coordinate in the frame is the sign of the computed product with the normal. The frame of a camera that does not look along its up vector is right handed and orthonormal up to rounding, its third column points at the target, its second column has a positive product with the up vector; rays start exactly at the position of the camera and their directions are unit vectors with the coordinates asked for. Every camera with a usual position, target and up vector sends finite rays.", "quantifier": "all tangents and normals of unit length with a product of at most 1/1000, all unit directions; all positions, targets and up vectors up to 2^60 at a distance of at least 2^-50, and all angles between up vector and view with a sine of at least 2^-12", "why_tests_cant": "The bounds hold for every rounding of every input; tests sample a few frames and do not look straight down with the usual up vector", "anchors": ["src/materials/shading_space.cpp:t = cross(Vec3(n), s).normalize();", "src/geometry/matrix4.cpp:void Matrix4::set_lookAt_inverse", "src/cameras/camera360.cpp:create_single_ray", "src/cameras/camera_orthographic.cpp:create_single_ray", "src/cameras/camera_perspective.cpp:create_single_ray"]}
{"id": "C171", "title": "Texture lookups with ray differentials in single precision", "statement": "In binary32: a texture coordinate is wrapped to its fraction without rounding; lookups of one texel and between four texels are defined, stay inside of the level and give the interpolation of the texels up to 2^-13 before truncation, never brighter than the texels; lookups between levels are defined for every footprint; whenever ray differentials are flagged as known they are numbers that solve the equations of the tangent plane, and the elliptical lookup with them is defined.", "quantifier": "For all coordinates in [0,1], all pyramids with sides up to 32768, all differentials including infinities and NaN, all rays, points and tangents of bounded size.", "why_tests_cant": "The failing cases are single values: a neighbouring ray exactly parallel to the surface, a footprint within 2^-23 of the texture, a weight whose rounding loses the last bit.", "anchors": ["src/primitives/hit_point.cpp:calculate_differentials", "src/textures/texture_image.cpp:TextureImage::map_value", "src/textures/image_map.cpp:ImageMapTrilinear::filter", "src/textures/image_map.cpp:ImageMap::bilinear", "src/textures/image_map.cpp:ImageMapEWA::filter"]}
{"id": "C172", "title": "Points and directions sampled on lights in single precision", "statement": "With the roundings of binary32, the point sampled on a box light is on the face that the random number falls into, with its normal and coordinates in the unit interval; the search for the triangle of a mesh light ends within as many steps as triangles, inside of the array, with a remapped random number in the unit interval; the point sampled on a triangle is one of the triangle up to a relative 2^-20; the point sampled on the sphere and the direction of emission have unit length up to 2^-20; the cumulative surfaces are those of the exact sums up to one rounding per term.", "quantifier": "all boxes with sides from 2^-20 to 2^20, all meshes whose sums do not overflow, all triangles with coordinates up to 2^100, all pairs of binary32 random numbers in the unit interval", "why_tests_cant": "Tests use shapes whose faces have similar surfaces and random numbers inside of the interval; surfaces lost in a sum, random numbers of exactly one and weights that round below zero need chosen inputs.", "anchors": ["src/primitives/box.cpp:void Box::sample_point(", "src/primitives/mesh.cpp:void Mesh::sample_point(", "src/primitives/triangle.cpp:void Triangle::sample_point(", "src/primitives/sphere.cpp:void Sphere::sample_point(", "src/lights/area_light.cpp:float z = 1.f-2.f*r2;"]}
{"id": "C173", "title": "Boxes are hit where they are in single precision", "statement": "With the roundings of binary32, a hit reported by Box::intersect is a point of the unit box up to (|o|+1)/2^21 in each coordinate, with o the coordinate of the origin, at a distance greater than SELF_INTERSECT_ERROR and not greater than the distance given; either the ray enters the box there, on the face whose outward normal is reported and against the ray, or it was in the box and leaves through the face the point is on. A ray that passes through the box by more than (|o|+1)/2^22 is reported: when it starts outside, not behind any of its points in the box; when inside, not before any of them. The normal and the tangent of every hit are unit vectors at right angles.", "quantifier": "all origins with coordinates up to 2^60 and all directions whose components are zero or of a size from 2^-60 to 2, except components that are zero with the origin in the plane of one of the two faces", "why_tests_cant": "Tests shoot a few rays at the middle of faces; roundings matter only at edges and for far origins, and a ray in the plane of a face needs a component of exactly zero and an origin of exactly zero or one.", "anchors": ["src/primitives/box.cpp:bool Box::intersect(", "src/primitives/box.cpp:float near = (-r->origin.x)*invr;", "src/primitives/box.cpp:if(mint>SELF_INTERSECT_ERROR)", "src/utility/utility.hpp:inline int sign(float a)", "src/settings.h:#define SELF_INTERSECT_ERROR 1e-2f"]}
{"id": "C174", "title": "The frame of a hit on a placed object is made of unit vectors at the right angles, in single precision", "statement": "In binary32 the normal and the tangents that Asset::intersect reports for a scaled and moved object are numbers, of length one up to 11e-6, point where the exact images point up to twelve half units, keep the inner product of normal and tangent up to a positive factor and 2^-19, and the ray arrives on the same side of the surface in object and world space.", "quantifier": "all scaled and moved placements with factors between 2^-20 and 2^25 and entries up to 2^25 whose inverse is computed, all normals of at least about unit length, all tangents between 2^-5 and 2^30, all rays", "why_tests_cant": "The errors come from the inverse matrix, two products and a normalisation with a tolerance, and differ for every placement and direction; that a member is never written shows only for one of the shapes.", "anchors": ["src/primitives/asset.cpp:hit->normal_h = transform_normal(hit->normal_h, &worldToObj);", "src/primitives/asset.cpp:hit->dpdv.normalize();", "src/geometry/matrix4.cpp:Normal transform_normal(const Normal& n, const Matrix4* inv)", "src/primitives/box.cpp:h->dpdu = Vec3(-h->normal_h.y, h->normal_h.x, 0);"]}
{"id": "C175", "title": "The areas of placed lights and the densities made of them are right in single precision", "statement": "In binary32 the sizes that Matrix4::get_scale takes from a placement, the areas of spheres, boxes and triangles made of them, the density 1/(2*pi*area) of emitted light, and the density distance^2/(cosine*area) of a point of a light seen from elsewhere are numbers, and relatively within a few units of the last place (1/2000 for the latter) of the exact ones; the densities are positive.", "quantifier": "all placements whose columns have sizes between 2^-20 and 2^20, with the squares right up to 20 half units; all observers up to 256 distances from the origin of the light's coordinates that do not see the surface at a grazing angle", "why_tests_cant": "The area is a product of square roots of sums of rounded squares, and the density cancels the observer's coordinates; both depend on scale and place, and overflow or underflow shows only for sizes no test uses.", "anchors": ["src/geometry/matrix4.cpp:get_scale", "src/primitives/sphere.cpp:return FOUR_PI*val*val;", "src/lights/area_light.cpp:AreaLight::invarea = 1.f/area;", "src/lights/area_light.cpp:*pdf /= (absdot(normal, -(*wi))*AreaLight::area);"]}
{"id": "C176", "title": "The direct light of a point is weighted right in single precision", "statement": "In binary32 what a sample of the light and what a sample of the material add to the radiance is material times light times cosine, weighted by the squares of the densities and divided by the density, relatively up to 1/398 of the exact value with exact densities; the expected contributions of both in one direction add up to material times light times cosine with the same bound.", "quantifier": "all factors between 2^-10 and 2^10, all densities between 2^-13 and 2^13 known up to 1/2000, in particular those of lights seen from the front as in C175", "why_tests_cant": "Losing or counting twice a part of the light is a matter of expectation, no single sample shows it; the errors of four products, two sums and two quotients depend on the ratio of the densities.", "anchors": ["src/integrators/ray_tracer.cpp:float weight = (lightpdf*lightpdf)/", "src/integrators/ray_tracer.cpp:w = (bsdfpdf*bsdfpdf)/(bsdfpdf*bsdfpdf+lightpdf*lightpdf);", "src/integrators/ray_tracer.cpp:L += bsdf_f*rad*absdot(wi, *normal_s)*w/bsdfpdf;", "src/lights/area_light.cpp:*pdf /= (absdot(normal, -(*wi))*AreaLight::area);"]}
{"id": "C177", "title": "The radiance of a path is a finite, bounded number in single precision and near the exact sum", "statement": "In binary32 every channel of the radiance that the path tracer returns for a path through a sound scene is finite, not negative and at most 2^106, whatever the length of the path and the random numbers of the roulette; only the first six vertices are looked at; up to four vertices (before the roulette) every channel is the exact sum, over the vertices, of the throughput times emission (at the first vertex and after a specular reflection) plus direct light, relatively up to 34/10^7; where the luminance of the throughput is at least one at the fifth vertex, the path ends there if the random number is below one half and otherwise goes on to a last vertex with the weight one half, relatively up to 36/10^7.", "quantifier": "all paths and all random numbers; emission and direct light up to 2^40, material times cosine up to 2^11 times the density, densities zero or at least 2^-100; for the nearness, paths with factors between 2^-5 and 2^5 and light between 2^-10 and 2^10", "why_tests_cant": "An overflow or a NaN in the product of five throughputs shows up as a single wrong pixel in one of many paths; tests do not steer the random numbers of a path.", "anchors": ["src/integrators/path_tracer.cpp:*power *= f*adot/pdf*rrprob;", "src/integrators/path_tracer.cpp:if(r->ricochet == DEFAULT_BOUNCES)", "src/integrators/path_tracer.cpp:float term = min(power->luminance(), 0.5f);", "src/settings.h:#define DEFAULT_BOUNCES 5"]}
{"id": "C178", "title": "The choice of a light or of a part of a material is in range in single precision", "statement": "In binary32, for every random number from zero to one, one included, the conversion of its product with the number of lights to an integer is defined, the chosen index is that of a light, and the random number is in the interval [i/n, (i+1)/n] of that light or at most 2^-23 below it; the same for the parts of a material.", "quantifier": "all finite random numbers in [0, 1] and all counts from 1 to 2^24", "why_tests_cant": "An index out of range needs the one random number that is rounded to 1, or a product that is rounded up to the count; tests with drawn numbers do not meet them.", "anchors": ["src/integrators/ray_tracer.cpp:int sampledlight = min((int)(rand[0]*nlights), nlights-1);", "src/materials/multi_bsdf.cpp:int chosen = (int)(r0*matchcount);"]}
{"id": "C179", "title": "Samples are placed in their pixel and stratum in single precision", "statement": "In binary32 both samplers place their samples in the pixel, the ends included, for every random number from zero to one; the position is that of the exact sum up to half a unit in the last place of the pixel, for stratified samples that of the exact stratum with 2^-22 more.", "quantifier": "all pixels below 2^16, all random numbers in [0, 1], up to 2^12 strata per side", "why_tests_cant": "A position beyond the pixel needs a random number next to one in the last stratum, and a width of the strata that was rounded up.", "anchors": ["src/samplers/sampler_random.cpp:res->posx = nextx+rng.getNumber();", "src/samplers/sampler_stratified.cpp:res->posx = (nextx)+((x+randomization_x)*dx);"]}
