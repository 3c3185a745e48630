{"id": "C01", "title": "Render tiles partition the image", "statement": "For every image size and every positive tile width, splitting the image for multi-threaded rendering yields tiles that lie inside the image and such that every pixel of the image belongs to exactly one tile, so no pixel is rendered twice or skipped.", "quantifier": "all image widths and heights (natural numbers, including 0) and all tile widths >= 1", "why_tests_cant": "A test can only try some sizes; the off-by-one risks are at the ragged right/bottom edges for every combination of size and tile width.", "anchors": ["src/misc/render_pool.cpp: RenderPool::initialize_pool", "include/feign/misc/render_pool.h: RenderTile"]}
{"id": "C02", "title": "Every tile is rendered exactly once under any thread timing", "statement": "For every order in which worker threads finish, a multi-threaded render hands every tile to a worker exactly once, never hands out a tile after the list ran out, and has joined every worker exactly once before the image is normalised.", "quantifier": "all numbers of tiles and threads, all schedules (which finished-flags are visible at each poll)", "why_tests_cant": "Thread completion order is not controllable by a test; the claim is about every interleaving of completions with the polling loop.", "anchors": ["src/misc/render_pool.cpp: RenderPool::evaluate_pool"]}
{"id": "C03", "title": "Pixel writes stay inside the frame buffer", "statement": "For every image size, reconstruction-filter radius and sample position inside the image, every pixel touched while a sample is splatted is a pixel of the image, even when the sample position and the filter bounds are rounded.", "quantifier": "all image sizes >= 1, all filter half-widths >= 0, all sample offsets in [0,1), every monotone rounding that is exact on pixel coordinates", "why_tests_cant": "Out-of-bounds writes depend on the joint choice of position, radius and rounding; tests sample a few.", "anchors": ["src/integrators/integrator.cpp: Integrator::render", "src/misc/render_pool.cpp: RenderTile::evaluate", "include/feign/math/bbox.h: BBox2::clip"]}
{"id": "C04", "title": "Rendered image does not depend on how workers interleave", "statement": "With the per-pixel locking the code uses, every interleaving of the workers' pixel updates produces the same accumulated image and weights as rendering the same samples one after another (exact arithmetic).", "quantifier": "all finite sets of samples, all partitions over workers, all interleavings of the locked updates", "why_tests_cant": "The set of interleavings is exponential and not controllable in a test.", "anchors": ["src/misc/render_pool.cpp: RenderTile::evaluate, RenderPool::evaluate_pool"]}
{"id": "C05", "title": "Every output pixel is a weighted average of radiance samples", "statement": "Each pixel of the final image is the filter-weighted mean of the radiance of the samples splatted onto it, is black when no weight reached it, and lies between the smallest and largest radiance sampled; a scene of constant radiance renders to that constant wherever some weight arrived (exact arithmetic).", "quantifier": "all sequences of splats with non-negative weights, all pixels, all radiance values", "why_tests_cant": "Holds for every sample sequence; reference-image tests compare a handful of scenes up to noise.", "anchors": ["src/integrators/integrator.cpp: Integrator::render", "src/misc/render_pool.cpp: RenderPool::evaluate_pool"]}
{"id": "C06", "title": "Area-weighted triangle selection is a correct discrete distribution", "statement": "For every mesh with non-negative triangle areas and positive total area, the selection table is monotone from 0 to 1, the probability of each triangle is its share of the area, and every random number in [0,1) selects a triangle of the mesh whose interval contains it, with positive probability.", "quantifier": "all lists of non-negative areas with positive sum, all u in [0,1)", "why_tests_cant": "Boundary values of u and zero-area triangles are measure-zero for random tests.", "anchors": ["src/math/discrete_pdf.cpp: DiscretePDF1D", "src/emitters/mesh.cpp: MeshEmitter::preProcess, sample_nee"]}
{"id": "C07", "title": "All forms of discrete sampling select the entry whose interval contains the number", "statement": "Every form of sampling a discrete distribution (index only, with probability, with reused number) selects the same entry, namely the one whose interval of the cumulative table contains the random number, and the reported probability is that entry's.", "quantifier": "all distributions, all u in [0,1)", "why_tests_cant": "The overloads are never compared with the table; a cumulative value truncated to an integer can look like a plausible index.", "anchors": ["src/math/discrete_pdf.cpp: DiscretePDF1D::sample", "src/math/discrete_pdf.cpp: DiscretePDF1D::sample_reuse"]}
{"id": "C08", "title": "Reused random numbers stay uniform and in range", "statement": "After a random number selects an entry, the rescaled number handed on for further sampling is in [0,1), and distinct inputs that selected the same entry stay distinct and ordered (exact arithmetic).", "quantifier": "all distributions with non-negative entries, all u in [0,1)", "why_tests_cant": "An out-of-range reuse only shows as rare fireflies; tests cannot cover all u.", "anchors": ["src/math/discrete_pdf.cpp: DiscretePDF1D::sample_reuse"]}
{"id": "C09", "title": "Light selection picks an existing light with the probability it reports", "statement": "Whenever a scene has at least one selectable light, uniform light selection returns a light of the scene, reports a positive probability, the reported probabilities over all lights sum to one, and the set of random numbers selecting a light has exactly the reported measure.", "quantifier": "all numbers of lights >= 1, all u in [0,1)", "why_tests_cant": "Requires all u and all counts, including the largest u below 1.", "anchors": ["src/accel/light_naive.cpp: NaiveLightAccel", "src/scene.cpp: Scene::choose_emitter"]}
{"id": "C10", "title": "Spatial light selection uses the grid cell of the shading point", "statement": "With the spatial light accelerator, lights are chosen with the probabilities of the grid cell that contains the shading point.", "quantifier": "all scene bounds, grid resolutions and shading points inside the bounds", "why_tests_cant": "A wrong cell still yields some light, so images stay plausible.", "anchors": ["src/accel/light_spatial.cpp: SpatialLightAccel", "include/feign/math/bbox.h: local_space, sample_x, sample_y, sample_z"]}
{"id": "C11", "title": "Names identify scene nodes uniquely and permanently", "statement": "In every sequence of scene-description calls, looking up a name of some kind always yields the same node, different names of the same kind yield different nodes, and a node once defined is never redefined or removed before rendering.", "quantifier": "all finite sequences of API calls with arbitrary names", "why_tests_cant": "History property: the offending history may be arbitrarily long.", "anchors": ["src/api/api.cpp: FeignRenderer::find_*, fr_*"]}
{"id": "C12", "title": "A second definition of a name is rejected without altering the first", "statement": "Defining an integrator, sampler, camera, mesh, emitter, BSDF, shader, texture or medium component under a name already defined fails and leaves the first definition in force.", "quantifier": "all API histories, all kinds, all names", "why_tests_cant": "Must hold at the end of every history, for every kind and name.", "anchors": ["src/api/api.cpp: fr_integrator, fr_sampler, fr_camera, fr_mesh, fr_emitter, fr_bsdf, fr_shader, fr_texture, fr_medium_*"]}
{"id": "C13", "title": "Declaration order of independent nodes does not matter", "statement": "Two declarations of different nodes may be swapped without changing which nodes exist, what they are defined as, or what each object refers to: nodes may be referenced before they are defined.", "quantifier": "all API states and all pairs of declarations with different targets", "why_tests_cant": "Number of orders is factorial; tests use one order per scene file.", "anchors": ["src/api/api.cpp: FeignRenderer::find_*, fr_*", "scenes/scene_file_format.txt"]}
{"id": "C14", "title": "Objects with a repeated name become separate instances", "statement": "Declaring an object under a name already used creates a further object and leaves every earlier object unchanged; the call always returns.", "quantifier": "all API histories, all names", "why_tests_cant": "Depends on the whole history of names, including names that look like generated ones.", "anchors": ["src/api/api.cpp: FeignRenderer::fr_object"]}
{"id": "C15", "title": "Only one scene per renderer", "statement": "After a scene has been declared, every further scene declaration fails and the first scene's settings stay in force.", "quantifier": "all API histories", "why_tests_cant": "History property.", "anchors": ["src/api/api.cpp: FeignRenderer::fr_scene"]}
{"id": "C16", "title": "A failed API call poisons the session instead of continuing silently", "statement": "Once any scene-description call has failed, every later scene-description call and the final render request fail too, so an image is never produced from a partially rejected description.", "quantifier": "all API histories containing a failing call", "why_tests_cant": "Needs all continuations after all failures.", "anchors": ["src/api/api.cpp: CLOCKER_START_ONE(API) in fr_*", "src/stats/clocker.cpp: Clocker::start_clock, end_clock"]}
{"id": "C17", "title": "Transform commands compose in order and stay invertible", "statement": "After any sequence of clear/scale/translate/rotate commands, the current transform equals the product of the commands since the last clear with the latest applied last, and its stored inverse is its exact inverse (non-zero scales, exact arithmetic).", "quantifier": "all command sequences and all parameters with non-zero scale factors and non-zero rotation axes", "why_tests_cant": "Unbounded sequences of commands.", "anchors": ["src/api/api.cpp: fr_clear_transform, fr_scale, fr_translate, fr_rotate", "src/math/transform.cpp"]}
{"id": "C18", "title": "Instances resolve to their own object", "statement": "After the scene is assembled, the instance id stored in each object's shape indexes that object, so every hit is shaded with the material of the object that was hit.", "quantifier": "all lists of declared objects, including several objects naming one mesh", "why_tests_cant": "Sharing patterns are unbounded; mis-association shows only as a wrong colour.", "anchors": ["src/api/api.cpp: FeignRenderer::flush_renders", "src/scene.cpp: getShapeMaterialShader"]}
{"id": "C19", "title": "Matrix inversion is a two-sided inverse", "statement": "For every 4x4 matrix with non-zero determinant, the computed inverse times the matrix and the matrix times the inverse are the identity (exact arithmetic); a singular matrix makes the code divide by zero.", "quantifier": "all 4x4 matrices over any field", "why_tests_cant": "16 free parameters; sign errors in one cofactor can hide on special matrices.", "anchors": ["include/feign/math/vector.h: Matrix4::operator~"]}
{"id": "C20", "title": "Transforms act consistently on points, directions, normals and rays", "statement": "Applying a composed transform equals applying its parts in turn, applying the inverse undoes a transform, points on a ray map to points on the transformed ray at the same parameter, and transformed normals stay orthogonal to transformed tangents (affine transforms, exact arithmetic).", "quantifier": "all invertible affine transforms, all points, vectors, normals and rays", "why_tests_cant": "Universally quantified algebra over 12+ real parameters.", "anchors": ["src/math/transform.cpp", "include/feign/math/vector.h: Matrix4"]}
{"id": "C21", "title": "Rotation commands are rigid and keep their axis", "statement": "A rotate command about a non-zero axis preserves lengths and angles, fixes the axis and has determinant 1 (exact arithmetic).", "quantifier": "all axes and angles", "why_tests_cant": "Continuous parameters.", "anchors": ["include/feign/math/vector.h: Matrix4::rotate", "src/api/api.cpp: fr_rotate"]}
{"id": "C22", "title": "Local shading frames are orthonormal and invertible", "statement": "The frame built around any unit normal is orthonormal, and converting a direction to local coordinates and back returns the same direction with the same length (exact real arithmetic).", "quantifier": "all unit normals, all directions", "why_tests_cant": "Degenerate branches (normal along an axis) have measure zero.", "anchors": ["src/math/coord_frame.cpp: CoordinateFrame"]}
{"id": "C23", "title": "Ray/box test is exact", "statement": "For every non-empty box and every ray, the box test succeeds exactly when some point of the ray inside its parameter range lies in the box, and the reported entry and exit parameters delimit exactly the part of the ray's line inside the box (exact arithmetic).", "quantifier": "all boxes, all ray origins, directions and ranges", "why_tests_cant": "Continuous domain with many sign cases.", "anchors": ["include/feign/math/bbox.h: BBox3::intersect"]}
{"id": "C24", "title": "Bounding boxes enclose what was added", "statement": "A box grown by points and boxes contains everything ever added to it and is the smallest such box.", "quantifier": "all sequences of expand/merge operations", "why_tests_cant": "Unbounded operation sequences.", "anchors": ["include/feign/math/bbox.h: BBox3::expand, BBox3::merge, BBox3::reset"]}
{"id": "C25", "title": "Octant splitting covers the box without overlap", "statement": "Splitting a box into eight yields sub-boxes whose union is the box and whose interiors are disjoint.", "quantifier": "all boxes with min <= max", "why_tests_cant": "Continuous domain.", "anchors": ["include/feign/math/bbox.h: BBox3::split_into_eight"]}
{"id": "C26", "title": "Sphere tracing never steps through a surface", "statement": "When every distance function under-estimates the true distance to its surface, marching a unit-direction ray never passes a surface point before reporting a hit, takes at most 2000 steps, and a reported hit is within the tolerance of the surface.", "quantifier": "all scenes of conservative distance functions, all unit-direction rays", "why_tests_cant": "Unbounded scenes and rays; a step-through needs an adversarial configuration.", "anchors": ["src/accel/ray_sdf.cpp: SDFAccel::intersect, sd_evaluate"]}
{"id": "C27", "title": "The reported SDF shape is the closest one", "statement": "Scene distance evaluation returns the minimum over all shapes and attributes a hit to a shape attaining that minimum.", "quantifier": "all non-empty lists of shapes, all points", "why_tests_cant": "All list lengths and tie patterns.", "anchors": ["src/accel/ray_sdf.cpp: SDFAccel::sd_evaluate"]}
{"id": "C28", "title": "Distance primitives are conservative", "statement": "The distance reported for spheres, planes with unit normal, boxes, cylinders and cones never exceeds the true distance to the primitive's surface (each is 1-Lipschitz and zero only on the surface).", "quantifier": "all primitive parameters accepted by the API, all query points", "why_tests_cant": "Continuous domain with many regions.", "anchors": ["src/shapes/sdf/*.cpp"]}
{"id": "C29", "title": "Primitive bounding boxes contain the primitive", "statement": "The bounding box reported for an SDF primitive contains every point where its distance is <= 0.", "quantifier": "all primitive parameters, all points", "why_tests_cant": "A box with swapped corners only fails for some rays.", "anchors": ["src/shapes/sdf_box.cpp, sdf_cylinder.cpp, sdf_cone.cpp, sdf_sphere.cpp: boundingBox"]}
{"id": "C30", "title": "Mesh intersection returns the closest hit", "statement": "Intersecting a ray with a mesh reports a hit exactly when some triangle is hit within range, with the smallest such distance.", "quantifier": "all triangle lists, all rays", "why_tests_cant": "All triangle orders and tie patterns.", "anchors": ["src/shapes/objmesh.cpp: ObjMesh::intersect"]}
{"id": "C31", "title": "Triangle test accepts exactly the triangle", "statement": "A ray is reported to hit a triangle only at points of that triangle.", "quantifier": "all triangles and rays", "why_tests_cant": "A missing edge test can pass on sample rays.", "anchors": ["src/shapes/objmesh.cpp: ObjMesh::intersect (single triangle)"]}
{"id": "C32", "title": "Grid meshes are well formed", "statement": "Generating a grid of resolution rx x ry (both >= 2) yields rx*ry vertices and 2(rx-1)(ry-1) triangles, every triangle refers to three different existing vertices, and every cell is covered by exactly its two triangles.", "quantifier": "all resolutions >= 2", "why_tests_cant": "All resolutions.", "anchors": ["src/shapes/grid_obj.cpp: GridObj::preProcess"]}
{"id": "C33", "title": "Nearest-photon query returns the k nearest photons in order", "statement": "A k-nearest query over any photon set returns min(k, number of photons) photons, sorted by distance, such that no unreturned photon is nearer than a returned one.", "quantifier": "all photon lists, all k, all query points", "why_tests_cant": "All arrival orders and ties.", "anchors": ["src/accel/photon_array.cpp: maybeAddPhoton"]}
{"id": "C34", "title": "Photon density estimates count every selected photon once", "statement": "Density estimation with radius r averages exactly the photons within distance r over the disc area, and with k nearest counts all k photons.", "quantifier": "all photon sets, radii and k", "why_tests_cant": "Off-by-one and squared/unsquared slips change brightness only slightly.", "anchors": ["src/accel/photon_array.cpp: PhotonArray::eval"]}
{"id": "C35", "title": "Photon emission never overruns the photon buffer", "statement": "Photon tracing stores at most the configured number of photons, whatever the paths do.", "quantifier": "all photon budgets, all bounce limits, all path outcomes", "why_tests_cant": "Overrun depends on the last path's random length.", "anchors": ["src/integrators/photon.cpp: PhotonMapping::scatter_photons"]}
{"id": "C36", "title": "Null surfaces are invisible to camera and shadow queries", "statement": "The nearest-surface query skips every surface marked null and returns the first non-null surface along the ray, or reports a miss if there is none.", "quantifier": "all scenes with finitely many hits per ray, all rays", "why_tests_cant": "Number of null surfaces crossed is unbounded.", "anchors": ["src/scene.cpp: Scene::intersect_non_null"]}
{"id": "C37", "title": "Path-traced radiance is the bounded sum of its vertex contributions", "statement": "The path integrator evaluates at most the configured number of bounces, and returns exactly the throughput-weighted sum of emission and direct light at each vertex, plus the environment on escape; the result is non-negative when all inputs are.", "quantifier": "all scenes, samplers and bounce limits (abstracted as arbitrary shading responses)", "why_tests_cant": "All random outcomes and bounce counts.", "anchors": ["src/integrators/path_unidir.cpp: Path_Unidirectional_Integrator::Li"]}
{"id": "C38", "title": "Directly visible emission is counted once", "statement": "Along a path, emission of a surface reached by a diffuse bounce is not added when its light was already sampled directly, and emission reached by the camera or a specular bounce is added exactly once.", "quantifier": "all bounce sequences, both material shaders, path and Whitted integrators", "why_tests_cant": "Depends on the history of the path.", "anchors": ["src/shaders/simple_material.cpp", "src/shaders/wireframe.cpp", "src/integrators/whitted.cpp", "src/integrators/path_unidir.cpp"]}
{"id": "C39", "title": "Ambient occlusion values are 0 or 1", "statement": "The ambient-occlusion integrator returns white exactly when the camera ray hits a surface and the sampled occlusion ray escapes, and black otherwise.", "quantifier": "all scenes, rays and random numbers", "why_tests_cant": "All scene responses.", "anchors": ["src/integrators/amb_occ.cpp: Ambient_Occlusion_Integrator::Li"]}
{"id": "C40", "title": "Timers are balanced on every control path", "statement": "Whatever the scene answers, each radiance evaluation starts and stops every timer it uses exactly once per use, never starts a running timer, never stops a stopped one, and leaves the set of running timers unchanged, so a render is never aborted by the timing code.", "quantifier": "all control paths of each integrator, any number of bounces and recursion depth", "why_tests_cant": "Every early exit must be covered.", "anchors": ["src/stats/clocker.cpp", "src/integrators/*.cpp", "src/debug_integrators/*.cpp", "src/accel/ray_embree.cpp"]}
{"id": "C41", "title": "Mirror and glass directions obey the laws of reflection and refraction", "statement": "Mirror and dielectric scattering of a unit direction yields a unit direction; reflection mirrors about the normal; refraction crosses the surface and satisfies Snell's law with the configured indices (exact real arithmetic).", "quantifier": "all unit incident directions, all positive indices of refraction", "why_tests_cant": "Continuous domain incl. total internal reflection and grazing.", "anchors": ["src/bsdfs/mirror.cpp", "src/bsdfs/dielectric.cpp", "src/bsdfs/one_way_dielectric.cpp"]}
{"id": "C42", "title": "Fresnel reflectance is a probability that depends on the angle", "statement": "The reflectance used to choose between reflection and refraction is in [0,1], is 1 under total internal reflection, 0 for equal indices, and follows the Fresnel equations for the incident angle.", "quantifier": "all cosines, all positive indices", "why_tests_cant": "Continuous domain; a wrong angle dependence still looks like glass.", "anchors": ["include/feign/common.h: fresnel"]}
{"id": "C43", "title": "Density is bounded by the reported majorant", "statement": "For each supported density function, the density at every point is at most the reported maximum.", "quantifier": "all points and parameters", "why_tests_cant": "Continuous domain.", "anchors": ["include/feign/media/density_func.h"]}
{"id": "C44", "title": "Estimated transmittance lies between 0 and 1", "statement": "Every implemented transmittance estimator returns values in [0,1] for non-negative density, for every random number sequence, and 1 for vacuum.", "quantifier": "all media, segments, majorants and random sequences", "why_tests_cant": "All random sequences.", "anchors": ["src/media/trans_ests/ratio.cpp", "src/media/trans_ests/homo.cpp", "src/media/trans_ests/ray_march.cpp"]}
{"id": "C45", "title": "Free-flight sampling yields a point on the segment or beyond its end", "statement": "Medium sampling reports a distance at or after the segment start; it reports a scatter only strictly before the segment end.", "quantifier": "all media, segments and random sequences", "why_tests_cant": "All random sequences.", "anchors": ["src/media/sampling/delta.cpp", "src/media/sampling/analytic.cpp", "src/media/sampling/ray_march.cpp", "include/feign/core/closure.h"]}
{"id": "C46", "title": "Homogeneous transmittance composes along a ray", "statement": "In a homogeneous medium the transmittance of a segment equals the product of the transmittances of its parts, decreases with length and obeys the extinction coefficient configured for the medium.", "quantifier": "all segments and coefficients", "why_tests_cant": "Continuous domain.", "anchors": ["src/media/trans_ests/homo.cpp", "include/feign/media/density_func.h: ConstantDensity"]}
{"id": "C47", "title": "Phase functions are normalised and sampling matches evaluation", "statement": "Each phase function integrates to one over the sphere and the value returned by sampling equals the evaluated phase function for the sampled direction.", "quantifier": "all asymmetry parameters and directions", "why_tests_cant": "An integral over a continuum.", "anchors": ["include/feign/media/phase.h"]}
{"id": "C48", "title": "Sampling warps land in their domain", "statement": "Uniform-square samples warp to points of the disk, sphere, hemisphere, cap and triangle they are meant for, and the companion density is positive exactly there.", "quantifier": "all (u,v) in [0,1)^2", "why_tests_cant": "Continuous domain including borders.", "anchors": ["src/math/warp.cpp"]}
{"id": "C49", "title": "Reconstruction filters are non-negative, symmetric and vanish outside their support", "statement": "Box and Gaussian filters are non-negative and symmetric, and zero outside their radius.", "quantifier": "all radii, all offsets", "why_tests_cant": "Continuous domain.", "anchors": ["src/filters/box_filter.cpp", "src/filters/gauss.cpp"]}
{"id": "C50", "title": "Equal seeds give equal renders", "statement": "Reseeding the sampler with a value makes the following random stream a function of that value only; two worker samplers created with equal seeds produce equal streams and the configured sample count.", "quantifier": "all seeds, all prior histories of the sampler", "why_tests_cant": "All histories before the reseed.", "anchors": ["src/samplers/independent.cpp", "include/feign/core/sampler.h"]}
{"id": "C51", "title": "Texture lookups stay inside the image", "statement": "Every texture lookup reads a pixel inside the image for every finite coordinate.", "quantifier": "all image sizes >= 1, all finite coordinates", "why_tests_cant": "Unbounded coordinates.", "anchors": ["src/textures/image_texture.cpp: ImageTexture::evaluate"]}
{"id": "C52", "title": "Scene description files are interpreted section by section", "statement": "Each recognised section issues exactly its API call with documented defaults for missing fields; objects get only the transforms listed in their own section; an unrecognised section or unsupported type aborts.", "quantifier": "all section sequences and field subsets", "why_tests_cant": "Exponential number of field subsets and section orders.", "anchors": ["src/parsers/json_parser.cpp: JsonParser::actually_parse"]}
{"id": "C53", "title": "Vector comparison operators are consistent", "statement": "Two vectors compare as different exactly when they do not compare as equal.", "quantifier": "all vectors", "why_tests_cant": "Only partially equal vectors exhibit the failure.", "anchors": ["include/feign/math/vector.h: operator==, operator!="]}
{"id": "C54", "title": "Complex arithmetic obeys field laws", "statement": "Complex addition and subtraction are mutually inverse in all forms and multiplication is commutative and associative.", "quantifier": "all complex numbers", "why_tests_cant": "Continuous domain.", "anchors": ["include/feign/math/complex.h"]}
{"id": "C55", "title": "Unit-test runner reports failure exactly when a test fails", "statement": "Running one test and running all tests report success exactly when every executed test's image error is within its threshold.", "quantifier": "all error values and test counts", "why_tests_cant": "The runner itself is not tested.", "anchors": ["src/test/tester.cpp: UnitTestManager", "src/main.cpp"]}
{"id": "C56", "title": "Recorded timings can be read back", "statement": "Parsing a recorded timing line gives back the date and timings that were written.", "quantifier": "all dates and timings", "why_tests_cant": "All values.", "anchors": ["src/stats/clocker.cpp: ClockerResults::to_string, parse_from_string"]}
{"id": "C57", "title": "Vector reductions return the component they name", "statement": "The largest-component query on a vector returns its largest component, the smallest-component query its smallest, and the index queries return the position of such a component.", "quantifier": "all three-component vectors over an ordered field", "why_tests_cant": "Any test with equal components, or that only exercises one of the overlapping queries, passes; ties and orderings multiply the cases.", "anchors": ["include/feign/math/vector.h: Vec3::max", "include/feign/math/vector.h: Vec3::min", "include/feign/math/vector.h: Vec3::maxIndex"]}
{"id": "C58", "title": "Camera rays go through the image plane and the centre looks at the target", "statement": "For every camera whose up vector is not along the viewing direction, the camera axes are orthonormal, and with zero aperture the ray of a film position starts at the eye, has unit direction, passes through the corresponding point of the image plane given by the field of view and the aspect ratio, covers depths near to far, and the image centre looks at the target (exact real arithmetic).", "quantifier": "all eye, target and up vectors spanning a view, all fields of view in (0,180), 0 < near < far, all film positions", "why_tests_cant": "Continuous parameters; a sign or axis error shows only for particular orientations.", "anchors": ["src/api/api.cpp fr_camera", "src/cameras/perspective.cpp preProcess sampleRay"]}
{"id": "C59", "title": "Depth of field focuses on one plane", "statement": "For every film position all camera rays, whatever the lens sample, pass through one common point at the focal distance, and start inside the aperture disk.", "quantifier": "all apertures >= 0, focal distances > 0, film positions and lens samples", "why_tests_cant": "Needs all lens samples for every film position.", "anchors": ["src/cameras/perspective.cpp sampleRay"]}
{"id": "C60", "title": "Sampling densities match the sampled distribution", "statement": "For the disk, sphere, cap, hemisphere, cosine, power-cosine and triangle warps, the share of random numbers that lands in a zone equals the integral of the companion density over that zone, so estimators dividing by the density are unbiased (exact real arithmetic).", "quantifier": "all zones, all exponents >= 0, all cap angles", "why_tests_cant": "A statement about measures; tests see only sample averages.", "anchors": ["src/math/warp.cpp"]}
{"id": "C61", "title": "Incomplete scenes are reported, not rendered", "statement": "Requesting a render of a description that refers to something never declared (mesh, light of an object, camera, integrator, sampler, reconstruction filter, medium) ends with an error, never with undefined behaviour; a complete description renders.", "quantifier": "all API histories, all iteration orders of the node tables", "why_tests_cant": "The set of incomplete descriptions is infinite, and each test only reaches one dangling reference; which null pointer is followed first depends on hash order.", "anchors": ["src/api/api.cpp:flush_renders", "src/scene.cpp:Scene::preProcess", "src/scene.cpp:Scene::renderScene", "src/integrators/integrator.cpp:Integrator::preProcess"]}
{"id": "C62", "title": "Every object is placed by its own transform", "statement": "The geometry of an object is moved by the transform in force when that object was declared, and by nothing else.", "quantifier": "all lists of declared objects, including several objects naming one mesh, all iteration orders", "why_tests_cant": "Sharing patterns and hash orders are unbounded.", "anchors": ["src/api/api.cpp:flush_renders", "src/api/api.cpp:fr_object"]}
{"id": "C63", "title": "Clean-up releases every node exactly once", "statement": "After a render, every node created by the description calls is released exactly once, whatever refers to it.", "quantifier": "all API histories, all iteration orders", "why_tests_cant": "Double frees and leaks depend on sharing between nodes in arbitrary descriptions.", "anchors": ["src/api/api.cpp:~FeignRenderer", "src/api/api.cpp:clean_up"]}
{"id": "C64", "title": "Mesh hit data belongs to the hit", "statement": "After a mesh hit, the completed position is the ray's point at the reported distance, the geometric normal has unit length and is perpendicular to the triangle, texture coordinates and the shading normal are the corners' values interpolated at the hit position (the shading normal scaled to unit length, the geometric normal when the mesh stores none), and texture coordinates stay between those of the corners.", "quantifier": "all triangles, rays, texture coordinates and stored normals", "why_tests_cant": "All triangle shapes, including thin ones, and all hit points.", "anchors": ["src/shapes/objmesh.cpp: ObjMesh::completeIntersectionInfo"]}
{"id": "C65", "title": "Mesh boxes, centroids and areas", "statement": "The bounding box of a mesh is the smallest axis-aligned box around its vertices and contains every triangle; the centroid of a face lies in the face, the centroid of a mesh lies in its box, and the area of a face is half of base times height.", "quantifier": "all meshes and triangles", "why_tests_cant": "All vertex lists; minimality quantifies over all boxes.", "anchors": ["src/shapes/objmesh.cpp: preProcess, boundingBox, centroid, compute_centroid, surface_area"]}
{"id": "C66", "title": "Displaced grids have upward unit normals", "statement": "Displacing a grid by any terrain map keeps its triangles and horizontal positions, and gives every vertex a normal that points upwards; after any invertible affine placement the stored normals are unit vectors.", "quantifier": "all resolutions >= 2, all terrain maps, all placements", "why_tests_cant": "All height functions; a degenerate normal would appear only for particular maps.", "anchors": ["src/shapes/grid_obj.cpp: GridObj::preProcess"]}
{"id": "C67", "title": "Photon powers stay finite", "statement": "Every stored photon has a finite, non-negative power when the lights, albedos and densities are finite and non-negative.", "quantifier": "all photon budgets, bounce limits, lights and path outcomes", "why_tests_cant": "A black colour channel somewhere along a path is enough to break it.", "anchors": ["src/integrators/photon.cpp: PhotonMapping::scatter_photons"]}
{"id": "C68", "title": "Photon tracing ends", "statement": "Photon tracing ends once the requested number of photons has been stored; it ends whenever paths keep reaching non-specular surfaces.", "quantifier": "all photon budgets, bounce limits and path outcomes", "why_tests_cant": "Non-termination cannot be observed by a test.", "anchors": ["src/integrators/photon.cpp: PhotonMapping::scatter_photons"]}
{"id": "C69", "title": "Shadow rays are blocked exactly by visible surfaces", "statement": "A shadow query ends and reports a ray as blocked exactly if a surface that is not marked null lies on it, however many null surfaces it crosses, and never fails.", "quantifier": "all scenes with finitely many hits per ray, all rays, inside or outside media", "why_tests_cant": "Number and order of media boundaries is unbounded.", "anchors": ["src/scene.cpp: Scene::intersect_transmittance"]}
{"id": "C70", "title": "Shadow-ray attenuation covers exactly the media crossed", "statement": "An unblocked shadow ray's throughput is multiplied by the transmittance of exactly the stretches that lie inside media; with no media it is unchanged, and it never grows.", "quantifier": "all sequences of media boundaries on a ray", "why_tests_cant": "All arrangements of several media.", "anchors": ["src/scene.cpp: Scene::intersect_transmittance"]}
{"id": "C71", "title": "Random termination keeps the expected image", "statement": "Ending paths at random does not change the expected value of what they return: light found before the end is kept, and the weight of what follows is divided by the probability of going on, so that weight times probability of survival is the plain product of the scattering weights.", "quantifier": "all paths, materials and termination probabilities", "why_tests_cant": "A bias of a few percent is invisible in single renders and hidden by noise.", "anchors": ["src/integrators/path_unidir.cpp: Path_Unidirectional_Integrator::Li", "src/integrators/whitted.cpp: WhittedIntegrator::Li"]}
{"id": "C72", "title": "Material sampling agrees with material evaluation", "statement": "For a diffuse, Phong or Blinn material lit from its front, the direction that sampling returns is a unit vector, the density reported is the density with which that direction is actually drawn, and the reflectance reported equals what evaluation returns for that pair of directions; for a diffuse material reflectance times cosine over density is exactly the material's colour. From behind nothing is reflected.", "quantifier": "all colours, incoming unit directions and pairs of random numbers", "why_tests_cant": "A wrong density is invisible in any single sample; it only biases the mean of infinitely many samples.", "anchors": ["src/bsdfs/diffuse.cpp Diffuse::sample,evaluate", "src/bsdfs/phong.cpp Phong::sample,evaluate", "src/bsdfs/blinn.cpp Blinn::sample,evaluate"]}
{"id": "C73", "title": "Opaque materials neither create energy nor leak light", "statement": "For colours and specular shares in [0,1], the integral over outgoing directions of reflectance times cosine is at most one, and an opaque material neither samples nor evaluates to anything but zero across the surface.", "quantifier": "all colours, specular shares, exponents and directions", "why_tests_cant": "The bound is an integral over all outgoing directions, which no finite set of test directions evaluates.", "anchors": ["src/bsdfs/diffuse.cpp", "src/bsdfs/phong.cpp Phong::Phong,sample,evaluate", "src/bsdfs/blinn.cpp"]}
{"id": "C74", "title": "Tracking estimators have the right expectation and distribution", "statement": "With a positive majorant not below the extinction, ratio tracking averages to the exact transmittance of the segment, and delta tracking scatters before any given distance with exactly the probability that transmittance asks for.", "quantifier": "all rays, segments, majorants and implemented densities, averaging over all random numbers", "why_tests_cant": "An expectation over a continuum of random sequences of unbounded length; a test sees a few noisy averages.", "anchors": ["src/media/trans_ests/ratio.cpp", "src/media/sampling/delta.cpp", "src/media/sampling/analytic.cpp"]}
{"id": "C75", "title": "Phase function sampling draws with the density it reports", "statement": "The directions drawn by a phase function are distributed with the density that the call returns.", "quantifier": "all parameters, incoming directions and random numbers", "why_tests_cant": "A statement about the distribution of a continuous random direction.", "anchors": ["include/feign/media/phase.h"]}
{"id": "C76", "title": "The configured seed decides the render's random numbers", "statement": "The random numbers a render draws are those of the generator started from the seed configured in the scene; different seeds lead to different streams.", "quantifier": "all configured seeds, sample counts and draw sequences", "why_tests_cant": "A fixed reference image passes with any seed; only a statement over all seeds shows whether the setting has an effect.", "anchors": ["src/samplers/independent.cpp Independent::preProcess,reseed", "src/core/api.cpp FeignRenderer::fr_sampler"]}
{"id": "C77", "title": "The command line is interpreted as documented", "statement": "Unrecognised arguments are skipped, the last scene name wins, and the exit status is zero exactly when every test that was asked for passed; a missing option value is rejected.", "quantifier": "all argument lists and test outcomes", "why_tests_cant": "Argument lists are unbounded and the exit status is what other tools test against.", "anchors": ["src/main.cpp main", "src/test/tester.cpp UnitTestManager"]}
{"id": "C78", "title": "Recorded timings are the mean of the runs", "statement": "With several runs of the same test the recorded timing of every stage is the arithmetic mean of the timings of the runs.", "quantifier": "all numbers of runs and timing values", "why_tests_cant": "The number of runs per record is a build-time constant, so tests see a single value.", "anchors": ["src/stats/clocker.cpp ClockerResults"]}
{"id": "C79", "title": "Environment light lookups use the spherical coordinates of the direction", "statement": "The radiance of the environment in a unit direction is the texture at the direction's longitude and latitude, always inside the image; directions that are not unit length may leave the domain.", "quantifier": "all unit directions and all image sizes", "why_tests_cant": "A continuum of directions; the poles and the seam are measure zero.", "anchors": ["src/emitters/environment.cpp EnvironmentEmitter::evaluate"]}
{"id": "C80", "title": "Baking a texture evaluates it once at every pixel", "statement": "Baking stores at each pixel exactly the texture's value at that pixel's coordinates, reports the first failing pixel, and gives back the scaled image when an image texture is baked at its own size; the sine texture stays within its amplitude in every channel.", "quantifier": "all textures, sizes, coordinates and parameters", "why_tests_cant": "All sizes and coordinates.", "anchors": ["src/textures/texture.cpp Texture::evaluate_image", "src/textures/sin_texture.cpp"]}
{"id": "C81", "title": "Meshes are read from OBJ files as the format describes", "statement": "Loading an OBJ file yields exactly the vertices, texture coordinates, normals and triangles its lines list, in file order, with the mesh's transform applied, normals of length one and flipped only on request; spacing, line ends, comments and other statements make no difference; what the reader does not support is rejected and never read as something else.", "quantifier": "all files, transforms, number spellings and flip settings", "why_tests_cant": "Files have unbounded length and any mix of statements, spacing and face notations.", "anchors": ["src/shapes/objmesh.cpp: ObjMesh::parseFromFile"]}
{"id": "C82", "title": "Transmittance functions are consistent", "statement": "Every transmittance function of a medium describes one random travel depth: the chance to get through is 1 at depth zero, never rises and tends to zero; the density of meeting the medium is the rate at which that chance falls; sampled depths have exactly that distribution; each colour channel is treated by itself; and the attenuation of a path does not depend on the direction it is travelled in.", "quantifier": "all transmittance functions, parameters in range, optical depths and random numbers, for paths from surfaces and from inside the medium", "why_tests_cant": "Derivatives, limits and distributions are statements about all depths and all random numbers.", "anchors": ["src/media/trans_funcs/trans_func.cpp: TransFunc::eval, TransFunc::sample", "src/media/trans_funcs/exp_trans.cpp: ExpTrans", "src/media/trans_funcs/lin_trans.cpp: LinearTrans", "src/media/trans_funcs/davis_trans.cpp: DavisTrans", "include/feign/math/spectrum.h: Step, Boxcar"]}
{"id": "C83", "title": "Lights answer direct light requests correctly", "statement": "Asked for light at a point, every light answers with a unit direction towards itself, the right strength and the density of the sample: a point light weakens with the squared distance, a spot light lights exactly the points in its cone and weakens likewise, a directional light has its given direction, an area light gives on average the integral over its surface of what it contributes, with samples on the light; and a light that is hit by a ray shows what its samples show.", "quantifier": "all lights and their parameters, all shading points and all random numbers", "why_tests_cant": "Cone membership, averages over the random numbers and the agreement of sampled and seen light range over a continuum of positions.", "anchors": ["src/emitters/point.cpp: PointEmitter::sample_nee", "src/emitters/spot.cpp: SpotLightEmitter::sample_nee", "src/emitters/directional.cpp: DirectionalEmitter::sample_nee, evaluate", "src/emitters/directional_mesh.cpp: DirectionalMeshEmitter::sample_nee, evaluate", "src/emitters/mesh.cpp: MeshEmitter::preProcess, sample_nee, evaluate"]}
{"id": "C84", "title": "Direct light is the sum over the visible lights", "statement": "The direct light added at a point is the sum over all lights of what each contributes where nothing blocks it; choosing one light at random gives the same on average as going through all of them; no light is counted negatively; and the result is defined for every kind of light.", "quantifier": "all scenes, lights, shading points and frames, materials and random numbers", "why_tests_cant": "It is a statement about averages over the random choice and about every geometry, including grazing directions.", "anchors": ["src/scene.cpp: Scene::eval_all_emitters, eval_one_emitter, eval_multi_emitters, choose_emitter", "src/closure/material.cpp: MaterialClosure::accumulate_shadow_rays", "include/feign/core/emitter.h: EmitterQuery"]}
{"id": "C85", "title": "Volumetric paths add up what they meet", "statement": "The volumetric path integrators return the sum over the path of throughput times the light met at each scattering point, surface and at the environment, with the medium between two vertices being the one behind the last boundary crossed; the path ends after at most the configured number of bounces; random termination does not change the expectation; nothing is divided by zero and nothing becomes negative.", "quantifier": "all scenes, media, boundaries, bounce limits, answers of the scene and random numbers", "why_tests_cant": "Paths of every length, every nesting of media and every random draw have to be covered; a picture cannot show whether a sum of averages is right.", "anchors": ["src/integrators/volpath.cpp: VolPath_Integrator::Li", "src/integrators/volpath_nonexp.cpp: VolPathNonExp_Integrator::Li", "include/feign/core/closure.h: MediaClosure"]}
{"id": "C86", "title": "Without media the volumetric integrator is the path integrator", "statement": "In a scene without media the volumetric path integrator returns exactly what the path integrator returns for the same random answers, however many surfaces without effect the rays cross in between.", "quantifier": "all scenes without media, all placements of null surfaces, all bounce limits and answers of the scene", "why_tests_cant": "It relates two programs over all inputs and all interleavings of null surfaces.", "anchors": ["src/integrators/volpath.cpp: VolPath_Integrator::Li", "src/integrators/path_unidir.cpp: Path_Unidirectional_Integrator::Li", "src/scene.cpp: Scene::intersect_non_null"]}
{"id": "C87", "title": "Light in media is counted once", "statement": "In a scene with media each light contributes once to a path: a scattering point takes its light samples weighted with the phase function of their own direction, surfaces met after it do not add emission that was already sampled, specular surfaces take emission and no samples, and every light can be chosen.", "quantifier": "all paths through media and surfaces, phase functions, lights and random numbers", "why_tests_cant": "Double counting depends on the order of scattering points and specular surfaces, of which there are infinitely many.", "anchors": ["src/integrators/volpath.cpp: VolPath_Integrator::Li", "src/closure/material.cpp: MaterialClosure::accumulate_shadow_rays", "src/scene.cpp: Scene::eval_one_emitter, choose_emitter"]}
{"id": "C88", "title": "The transmittance view shows the medium's transmittance", "statement": "The transmittance integrator returns the transmittance of the medium on the camera ray: from entry to exit for a camera in front, from the camera to the exit for a camera inside, and one where there is no medium.", "quantifier": "all cameras, media and boundaries along the ray", "why_tests_cant": "It ranges over every position of camera and medium on the ray.", "anchors": ["src/integrators/volpath_trans.cpp: VolPathTrans_Integrator::Li", "src/accel/ray_embree.cpp: EmbreeAccel::intersect"]}
{"id": "C89", "title": "The sphere shader moves a mesh towards a sphere", "statement": "A mesh with the sphere shader has every vertex moved the given share of the way to its projection onto the sphere around the centroid of the mesh, whose radius is the given multiple of the shortest side of its box; faces are kept and every normal is the unit vector along the sum of the unit normals of the faces using it. All coordinates stay finite.", "quantifier": "all meshes, shader parameters and numbers of objects sharing the mesh", "why_tests_cant": "It ranges over every mesh and every order in which centroid, box and shader are evaluated.", "anchors": ["src/shaders/interp_verts_to_sphere.cpp: InterpVertsToSphereShader::evaluate", "src/shapes/objmesh.cpp: ObjMesh::preProcess", "include/feign/core/shader.h: InterpVertsToSphereShader"]}
{"id": "C90", "title": "Ray queries in distance-function scenes respect the asked interval", "statement": "In a scene made of signed-distance shapes, a query along a ray looks only at the part of the ray between its near and far end: a shadow ray is blocked only by shapes between the point and the light, and a query that skips null shapes returns after finitely many looks with the first visible surface behind them.", "quantifier": "all lists of distance functions, scene boxes, ray origins, directions, near and far ends, null flags and media of the shapes", "why_tests_cant": "Whether a query returns at all, and what it reports for shapes outside the interval, depends on every placement of shapes, ends and null flags; a test covers single placements and cannot show non-termination.", "anchors": ["src/accel/ray_sdf.cpp:SDFAccel::intersect", "src/scene.cpp:Scene::intersect_non_null", "src/scene.cpp:Scene::intersect_transmittance"]}
{"id": "C91", "title": "The wireframe material draws the edges", "statement": "A surface with the wireframe material shows the wire material exactly where the hit point is closer to an edge of its triangle than the threshold times the height of the triangle over that edge, and the mesh material elsewhere; a threshold up to zero draws no wire and only a threshold above one third covers whole triangles.", "quantifier": "all non-degenerate triangles, hit points in them, thresholds and pairs of materials; all shapes that can be given the material", "why_tests_cant": "The claim is about every point of every triangle shape; tests can only compare single pixels, and the comparison of three weights has boundary cases on all edges.", "anchors": ["src/shaders/wireframe_material.cpp:WireframeMaterialShader::choose_bsdf", "src/shapes/objmesh.cpp:ObjMesh::completeIntersectionInfo", "src/accel/ray_sdf.cpp:SDFAccel::intersect"]}
{"id": "C92", "title": "Every medium uses its own settings", "statement": "A medium attenuates and scatters light with the density function, coefficients and transform it was declared with. Other media in the scene, components named by several media and the order in which media are prepared make no difference.", "quantifier": "all finite collections of media, component libraries, sharing patterns between media, orders of preparation, rays, ray intervals and random numbers", "why_tests_cant": "Media may share components in any pattern and are prepared in the unspecified order of a hash map; a test fixes one pattern and one order.", "anchors": ["src/media/standard.cpp:Media::preProcess", "src/media/standard.cpp:Media::transmittance", "src/media/standard.cpp:Media::sample", "src/api/api.cpp:FeignRenderer::fr_media", "src/api/api.cpp:FeignRenderer::find_transmittance_estimator"]}
{"id": "C93", "title": "Photons share out the power of the lights", "statement": "Photon mapping emits paths that together carry the power of all lights, each path on average the whole power. A photon stored by one of N emitted paths has the power its path carries there divided by N, so the photons of the first hits add up to the part of the emitted power that reaches a surface.", "quantifier": "all scenes (lists of lights), random numbers, bounce limits, wanted numbers of photons and behaviours of the paths", "why_tests_cant": "The brightness of every photon depends on how many paths were needed, which depends on all random choices; a test sees one run and has no reference for the right scale.", "anchors": ["src/integrators/photon.cpp:PhotonMapping::scatter_photons", "src/emitters/point.cpp:PointEmitter::sample_ray", "src/scene.cpp:Scene::choose_emitter"]}
{"id": "C94", "title": "The photon-mapped view shows what the camera sees", "statement": "With the photon mapping integrator, a pixel sample is the light the visible surface emits towards the camera plus what the surface reflects of the light stored in the photon map near the visible point; a mirror shows what lies in the mirror direction, and a ray that meets nothing shows the environment.", "quantifier": "all photon maps, visible surfaces with any material answer and emission, environments and colour channels", "why_tests_cant": "The claim is about every combination of map, surface and emission; tests compare single pixels with a reference that the renderer itself produced.", "anchors": ["src/integrators/photon.cpp:PhotonMapping::Li", "src/accel/photon_array.cpp:PhotonArray::eval", "src/closure/material.cpp:MaterialClosure"]}
{"id": "C95", "title": "Hits are reported for the object that was hit", "statement": "A ray query against the scene reports the nearest point of any triangle of any object between the ends of the ray, together with the object and the triangle it belongs to and the point itself, and reports nothing exactly if there is no such point. This holds for every scene the interface accepts.", "quantifier": "all lists of shapes (meshes and distance functions in any order), rays with any near and far ends, and all answers an intersection library that returns nearest hits can give", "why_tests_cant": "The attribution depends on the order and kinds of all the shapes in the scene; tests use scenes of meshes only, where the numbering coincides.", "anchors": ["src/accel/ray_embree.cpp:EmbreeAccel::addShape", "src/accel/ray_embree.cpp:EmbreeAccel::intersect", "src/scene.cpp:Scene::preProcess", "src/shapes/objmesh.cpp:ObjMesh::addShapeToScene", "src/shapes/objmesh.cpp:ObjMesh::completeIntersectionInfo"]}
{"id": "C96", "title": "The photon roulette keeps the power on average", "statement": "When a photon hits a surface it is stored there with the power it carries, unless the surface is a mirror, and goes on with the reflected power: its power times the albedo times the cosine at the new direction over the density of that direction, per channel and without the cosine for a mirror. The roulette that may end the path leaves the mean of the power unchanged and always yields a probability. This holds for photons and surfaces of every colour.", "quantifier": "all photon powers, surfaces, albedos, cosines, densities, roulette numbers, positions in a path and contents of the photon array", "why_tests_cant": "The mean is over all roulette numbers and the claim over all colours; tests run one seed on white lights.", "anchors": ["src/integrators/photon.cpp:PhotonMapping::scatter_photons", "include/feign/math/vector.h:Color3::maxValue"]}
{"id": "C97", "title": "An area light shines from the objects that carry it", "statement": "An object declared with an area light is a lamp: light is sampled on the surface of every object that carries it, a ray that hits such an object sees it glow with that light, objects that do not carry the light do not glow with it, and a light no object carries contributes nothing.", "quantifier": "all sessions of scene description calls, all iteration orders of the name tables, all area lights and all sets of objects that carry them", "why_tests_cant": "It depends on every way objects can share meshes and lights and on the unspecified iteration order of hash tables.", "anchors": ["src/api/api.cpp:FeignRenderer::flush_renders", "src/api/api.cpp:FeignRenderer::fr_object", "src/scene.cpp:Scene::preProcess", "src/scene.cpp:Scene::accumulate_emission", "src/emitters/mesh.cpp:MeshEmitter::sample_nee", "src/emitters/mesh.cpp:MeshEmitter::preProcess"]}
{"id": "C98", "title": "Averages over sampled directions are integrals against the reported density", "statement": "For the disk, sphere, cap, hemisphere, cosine, power-cosine and triangle warps, the average of any function over the warped points equals the integral of that function times the companion density over the warp's domain, in ordinary spherical (or plane) coordinates; on the sphere the warped direction is distributed, as a measure on directions, with the companion density with respect to solid angle. Dividing by the density therefore estimates the plain integral.", "quantifier": "all functions of a direction or point, all measurable sets of directions, all cap angles, all exponents above -1", "why_tests_cant": "An identity between two integrals for every integrand; a test averages finitely many samples of a few integrands and cannot tell a small bias from noise.", "anchors": ["src/math/warp.cpp", "include/feign/math/warp.h"]}
{"id": "C99", "title": "One bounce estimates the light a surface sends back", "statement": "Averaged over the sampler's numbers, the factor a path picks up at a surface (albedo times cosine over density, without the cosine for mirrors and glass) times the light arriving along the sampled direction equals the integral over the hemisphere of the material's evaluated reflectance times cosine times arriving light; for glass it is the reflected and the refracted light in the proportions of the Fresnel reflectance.", "quantifier": "all arriving light distributions, colours, shares, exponents, indices of refraction and viewing directions", "why_tests_cant": "The claim is an equality of integrals for every lighting; renders of a few scenes only show noisy averages.", "anchors": ["src/integrators/path_unidir.cpp:Path_Unidirectional_Integrator::Li (132-139)", "src/bsdfs/diffuse.cpp", "src/bsdfs/phong.cpp", "src/bsdfs/dielectric.cpp"]}
{"id": "C100", "title": "The mean of a path-traced radiance solves the rendering equation", "statement": "Averaged over the sampler's random numbers, the radiance the path integrator returns for a ray is the light carried back along paths of at most max_bounces segments: never more, and less by at most a ten-thousandth of the brightest light in the scene (the cut-off of faint paths), exactly equal when sampled directions are grey and not that dark. As the limit grows this tends to a solution of the rendering equation: emission plus direct light plus what the surface reflects of the incoming light — Lambert's hemisphere integral for diffuse surfaces, the mirror direction for mirrors, mirror and refracted direction in Fresnel proportion for glass.", "quantifier": "every scene (materials, geometry, lights, environment given as measurable functions of the ray), every camera ray, every bounce limit, averaged over all streams of independent uniform random numbers", "why_tests_cant": "A test renders finitely many samples; a mean over all random streams, for every scene and depth, can only be estimated by running, never settled, and a bias hidden by noise passes every image comparison.", "anchors": ["src/integrators/path_unidir.cpp:Path_Unidirectional_Integrator::Li", "src/bsdfs/diffuse.cpp:Diffuse::sample", "src/bsdfs/mirror.cpp:Mirror::sample", "src/bsdfs/dielectric.cpp:Dielectric::sample", "src/samplers/independent.cpp:Independent::next1D", "src/shaders/simple_material.cpp:SimpleMaterialShader::evaluate"]}
{"id": "C101", "title": "The image tends to the filtered light as samples per pixel grow", "statement": "As the number of samples per pixel grows, every pixel of the rendered image tends, for almost every stream of random numbers, to the average over the film of the mean light arriving at each film position, weighted with the reconstruction filter around the pixel's centre. With the path integrator the limit is the filtered light carried back along paths of at most max_bounces segments, up to a ten-thousandth of the brightest light.", "quantifier": "every image size, every measurable camera and integrator that draw from the sampler and return non-negative radiance of bounded mean, both reconstruction filters; almost every stream of independent uniform random numbers", "why_tests_cant": "A limit over the number of samples and a statement about almost every random stream cannot be observed in any finite set of renders; neighbouring pixels share samples and one sampler feeds the whole image, so correlations that spoil convergence would not show in one picture.", "anchors": ["src/integrators/integrator.cpp:Integrator::render", "src/filters/gauss_filter.cpp:GaussFilter::evaluate", "src/filters/box_filter.cpp:BoxFilter::evaluate", "src/integrators/path_unidir.cpp:Path_Unidirectional_Integrator::Li", "src/samplers/independent.cpp:Independent::next1D"]}
{"id": "C102", "title": "The mean of the image for a fixed number of samples is the filtered light", "statement": "For every number of samples per pixel, the average of the image over the random numbers is already the filtered light, so that averaging several renders of few samples gives the same picture as one render of many.", "quantifier": "every image size, every number of samples per pixel, every camera and integrator that draw from the sampler, averaged over all streams of independent uniform random numbers", "why_tests_cant": "A mean over all random streams can only be estimated by running; a bias of the order of the noise of one render is not visible in any render.", "anchors": ["src/integrators/integrator.cpp:Integrator::render", "src/filters/gauss_filter.cpp:GaussFilter::evaluate", "src/filters/box_filter.cpp:BoxFilter::evaluate"]}
{"id": "C103", "title": "Ambient occlusion images show how open each point is", "statement": "Averaged over the random numbers, the ambient occlusion integrator's value along a camera ray is, in every channel, the share of the hemisphere around the geometric normal of the hit point, directions weighted with the cosine, from which no surface is in the way; it is black where the camera ray hits nothing. As the number of samples per pixel grows the rendered image tends, with probability one, to that value averaged over the film with the pixel filter. The side from which the surface is seen does not matter: the hemisphere is always the one the geometric normal points into.", "quantifier": "every scene (hit test, hit points, orthonormal geometric frames, occluders, measurable), every camera, every image size, almost every stream of random numbers", "why_tests_cant": "A test renders with finitely many samples and compares with a tolerance; the claim is about the exact mean over all random numbers and the limit for every scene.", "anchors": ["src/integrators/amb_occ.cpp:Ambient_Occlusion_Integrator::Li", "src/math/warp.cpp:sqrToCosHemi", "src/misc/intersection.cpp:toWorldGeom", "src/core/integrator.cpp:render"]}
{"id": "C104", "title": "Whitted's integrator ends and averages to the light seen through specular surfaces", "statement": "For every camera ray the Whitted integrator's recursion ends with probability one, and the average of what it returns is the light seen along the ray through any number of specular surfaces: the environment where nothing is hit, what each surface emits, and at the first surface that is not specular the direct light. Ending paths at random does not change that average.", "quantifier": "every scene (measurable, non-negative, draws independent uniform numbers), every ray, almost every stream of random numbers", "why_tests_cant": "A test sees finitely many random paths; both the almost sure end of an unbounded recursion and the exact mean quantify over all streams.", "anchors": ["src/integrators/whitted.cpp:WhittedIntegrator::Li", "src/closure/material.cpp:accumulate_shadow_rays", "src/shaders/simple_material.cpp:evaluate"]}
{"id": "C105", "title": "What images of scenes with media show on average", "statement": "For a scene of diffuse surfaces, lights that are sampled, an environment and media, the average over the random numbers of what the volumetric path integrator returns for a camera ray is the light carried back along it by paths with at most the configured number of vertices (null surfaces do not count): exactly if no path is given up as too dark, otherwise less by at most a ten-thousandth of the brightest light in the scene. For homogeneous isotropic media this light solves the equation of radiative transfer: along a ray in a medium it is the light scattered in at every point plus the light from what is hit, both weakened by the extinction on the way. As the number of vertices grows it tends to the full solution, and without lights it is nowhere brighter than the environment.", "quantifier": "All scenes, media (density, absorption and scattering coefficients), rays, numbers of bounces and all random number streams (almost surely)", "why_tests_cant": "An average over all random numbers and paths of unbounded length; tests compare a few noisy images and cannot tell a wrong extinction from a different medium", "anchors": ["src/integrators/volpath.cpp: VolPath_Integrator::Li", "src/media/standard.cpp: Media::sample", "src/media/sampling/analytic.cpp: AnalyticalTrans_Samp::sample", "include/feign/media/phase.h: IsotropicPhase", "include/feign/media/density_func.h: ConstantDensity", "include/feign/math/vector.h: max"]}
{"id": "C106", "title": "Images seen through the perspective camera", "statement": "As the number of samples per pixel grows, the image rendered through the perspective camera tends, with probability one, to the reconstruction-filtered average over the lens disk, uniform in area, of the mean light arriving along the lines from the points of the lens to the point in focus of each film position. Whatever lies at the focal distance is sharp for every aperture, with aperture 0 the light at a film position is that along the one line from the eye, and row 0 of the image is at the top.", "quantifier": "All usable cameras (field of view between 0 and 180 degrees, near below far, any film size, aperture, focal distance), all affine placements, every integrator and scene for which the integrator's mean exists, almost every random number stream", "why_tests_cant": "A limit over unboundedly many samples and a continuum of film and lens positions; a test compares one noisy image", "anchors": ["src/cameras/perspective.cpp: Perspective::preProcess, sampleRay", "src/integrators/integrator.cpp: Integrator::render", "src/math/warp.cpp: sqrToUniDisk", "src/api/api.cpp: fr_camera"]}
{"id": "C107", "title": "The camera's near and far limits are depths", "statement": "A camera ray reports hits exactly between the depths near and far of the camera, measured along the viewing direction, whatever the film position and the lens sample.", "quantifier": "All usable cameras, film positions and lens samples", "why_tests_cant": "Continuous domain; the difference only shows with an open aperture and geometry close to a limit", "anchors": ["src/cameras/perspective.cpp: Perspective::sampleRay"]}
{"id": "C108", "title": "The results site shows every test with its own results", "statement": "After running all tests, the home page lists every test scene exactly once in alphabetical order in closed rows of three, each entry leads to a page written in the same run, and that page reports the errors of this run and shows this run's images of that test.", "quantifier": "for every directory content and reading order, every renderer, every error measure and every previous state of the files", "why_tests_cant": "the number, names and order of the tests and the previous files are unbounded; a run over the tests at hand shows neither name clashes nor rows for other counts", "anchors": ["src/test/site_assembler.cpp: create_global_html_page, create_test_html_page", "src/test/tester.cpp: run_all_tests", "src/test/test.cpp: evaluate_unit_test"]}
{"id": "C109", "title": "Tests are compared with their own references", "statement": "Replacing the references renders the scenes the tests render; a test run changes no reference; after the references were replaced, a test run passes exactly when each scene's image is within the threshold of the image the reference run rendered from the same scene.", "quantifier": "for all test names, scene files, renderers, error measures and previous files, for single tests and for all tests", "why_tests_cant": "depends on every combination of names and on the current folder; a clash shows only with particular names", "anchors": ["src/test/test.cpp: evaluate_unit_test, replace_reference", "src/test/tester.cpp: run_test, run_all_tests", "include/feign/test/tester.h: UnitTestData"]}
{"id": "C110", "title": "Recording a run renews the graphs of that test only", "statement": "Recording the timings of a test run removes the old graphs of that test and nothing else, and leaves an existing folder for the new graphs.", "quantifier": "for every test name and every content of the current folder and of the folder of the graphs", "why_tests_cant": "what is deleted depends on what else lies in the current folder", "anchors": ["src/test/site_assembler.cpp: append_to_test_records"]}
{"id": "C111", "title": "Scene bounds enclose the scene", "statement": "Before a render the renderer computes one axis-aligned box for the whole scene, and hands it to the light and photon structures. This box contains every surface of every object of the scene, and is the smallest such box.", "quantifier": "all scenes: any number of mesh objects with or without emitters and of distance-field shapes", "why_tests_cant": "A box that misses part of the scene still renders; only structures that divide the scene's space go wrong. All scenes and all boxes are quantified over.", "anchors": ["src/scene.cpp: Scene::preProcess", "src/shapes/objmesh.cpp: preProcess, boundingBox", "src/api/api.cpp: flush_renders", "include/feign/math/bbox.h: expand"]}
{"id": "C112", "title": "Rendering into an image of the caller's", "statement": "When the caller hands in an image to render into, the picture is the one a scene file asking for exactly that image size would produce: the same view, undistorted.", "quantifier": "all perspective cameras, all sizes of the scene file's film and of the image, all film positions and lens samples", "why_tests_cant": "The view must agree for every pair of sizes and at every film position; a stretched picture still looks plausible.", "anchors": ["src/scene.cpp: renderScene, preProcess", "src/cameras/perspective.cpp: preProcess, sampleRay", "src/api/api.cpp: FeignRenderer::FeignRenderer(Imagef *), fr_scene"]}
{"id": "C113", "title": "The debug views show what they are named after", "statement": "With the integrator normal two surfaces get the same colour exactly if their shading normals differ in signs only; with nice_normal the shading normal can be read off the colour, which stays within zero and one; with cosine_term the grey value is the cosine between the shading normal and the direction towards the viewer; with barycentric a point is white exactly if it lies near an edge of its triangle. The background can be told from every surface, and as the number of samples grows each pixel tends to the filtered value of the view.", "quantifier": "all shading normals, ray directions, triangles and hit points, all scenes and cameras, and almost all streams of random numbers", "why_tests_cant": "a test compares one picture; that a colour determines a normal, and what a pixel tends to, are statements about all normals and all numbers of samples", "anchors": ["src/debug_integrators/normal.cpp: NormalIntegrator::Li", "src/debug_integrators/nice_normal.cpp: NiceNormalIntegrator::Li", "src/debug_integrators/cosine_term.cpp: CosineTermIntegrator::Li", "src/debug_integrators/barycentric.cpp: BarycentricIntegrator::Li"]}
{"id": "C114", "title": "The sandbox integrator shows the light of the first surface", "statement": "With the integrator sandbox every camera ray shows the light that the first surface emits or reflects directly, as the path integrator does with one bounce; a ray that meets nothing shows the environment; null surfaces are seen through, and a medium inside them weakens what lies behind or scatters light towards the camera.", "quantifier": "all scenes, media, materials and random numbers", "why_tests_cant": "a test runs one scene with one seed; that no random number changes the result, and every combination of null surfaces, boundaries and media, have to be argued", "anchors": ["src/debug_integrators/sandbox.cpp: Sandbox_Integrator::Li"]}
{"id": "C115", "title": "The normal reported for a distance-function hit is the surface's normal", "statement": "When a ray hits a distance-function primitive, the normal used for shading is a unit vector along the outward normal of the primitive's surface at the hit: exact on flat faces, and within an error proportional to the hit tolerance over the radius of curvature on curved ones.", "quantifier": "all scenes of well-formed primitives, rays and hits with no other primitive within three tolerances of the hit", "why_tests_cant": "the normal comes from six evaluations of the distance around the hit; whether they straddle a kink depends on the exact point where the marching stops, which differs from ray to ray", "anchors": ["src/accel/ray_sdf.cpp: SDFAccel::sd_normal", "src/accel/ray_sdf.cpp: SDFAccel::intersect", "src/shapes/sdf_plane.cpp: SDFPlane::evaluate", "include/feign/common.h: EPS_VEC_X, EPS_VEC_Y, EPS_VEC_Z, Epsilon"]}
{"id": "C116", "title": "Light paths can be reversed", "statement": "For every material, exchanging the direction light comes from and the direction it is seen from leaves the reflectance unchanged; a direction reflected or refracted by a specular material is sent back where it came from, with the same colour and probability; every phase function gives the same value both ways; and a mesh blocks the line between two points from one end exactly if it does from the other.", "quantifier": "every material and its parameters, every pair of directions on either side, every random number, every phase function, every mesh and every stretch of every line", "why_tests_cant": "Camera paths and photon paths agree only if this holds for all pairs of directions; a test compares a few, and the failures are on a set of directions near grazing or across the surface", "anchors": ["src/bsdfs/diffuse.cpp:Diffuse::evaluate", "src/bsdfs/phong.cpp:Phong::evaluate", "src/bsdfs/blinn.cpp:Blinn::evaluate", "src/bsdfs/mirror.cpp:Mirror::sample", "src/bsdfs/dielectric.cpp:Dielectric::sample", "src/bsdfs/one_way_dielectric.cpp:OneWayDielectric::sample", "src/bsdfs/null.cpp:NullBSDF::sample", "include/feign/media/phase.h", "src/shapes/objmesh.cpp:ObjMesh::intersect"]}
{"id": "C117", "title": "Estimates that are not numbers stay local", "statement": "If a radiance estimate is infinite or not a number, only pixels it contributes to are affected, and only in the colour channels concerned: every other pixel is the one rendered with any number in its place, and a pixel without weight is black. The single-threaded renderer reports exactly the pixels whose own samples are infinite or not numbers, so a damaged image is never written without a message.", "quantifier": "every filter that vanishes outside its size, image size, number of samples per pixel, sample positions and estimates, finite or not", "why_tests_cant": "which samples fail depends on the random numbers, and damage at a pixel has to be traced to samples of other pixels for every filter size and position", "anchors": ["src/integrators/integrator.cpp Integrator::render", "src/misc/render_pool.cpp RenderTile::evaluate, evaluate_pool", "include/feign/math/vector.h isNan, isInf"]}
{"id": "C118", "title": "Materials evaluate to reflectances that are numbers", "statement": "Whatever colours, specular shares and exponent a scene file gives a glossy material, evaluating it between any two directions gives a finite number that is not negative in every channel, and so does sampling it.", "quantifier": "every diffuse and specular share, every exponent (not only whole ones), every pair of unit directions and every pair of random numbers", "why_tests_cant": "the failures are at directions far from the mirror direction, which light sampling meets only for some lamps and surface orientations; tests use the default exponent", "anchors": ["src/bsdfs/phong.cpp Phong::evaluate, Phong::sample", "src/bsdfs/blinn.cpp Blinn::evaluate", "src/parsers/json_parser.cpp exponent"]}
{"id": "C119", "title": "Rounding changes a pixel only a little", "statement": "The image is computed in single precision. A pixel differs from the weighted mean of its samples by a relative error that is bounded by the number of samples that reach it divided by about four million, and rendering with more samples makes the image better.", "quantifier": "all image sizes up to 2^24, all filters and radiances that are not negative, all sample positions, any number of samples", "why_tests_cant": "Rounding errors add up over millions of additions and depend on the order and size of every sample; a test sees one image with few samples.", "anchors": ["src/integrators/integrator.cpp: Integrator::render", "include/feign/common.h: Float"]}
{"id": "C120", "title": "Looking up a point in the photon octree", "statement": "The photon octree answers with the smallest node that contains a point. If the point lies on the boundary of several boxes it answers with the node above them.", "quantifier": "all octrees of any depth, all points", "why_tests_cant": "The answer depends on the shape of the whole tree and on the position of the point relative to every box; a test tries a few trees and points.", "anchors": ["src/accel/photon_bvh.cpp: PhotonBVH::BVHNode::traverse, split", "include/feign/core/accel_photons.h: PhotonBVH"]}
{"id": "C121", "title": "Scene files build what they say", "statement": "Running a scene file carries out its sections one after the other until something does not fit. The file reaches the point of rendering exactly if every section is well-formed on its own and every declaration has a free name, comes after the scene where it is a light or light accelerator, is the only scene, and names an existing integrator. The scene is then the one described by the declarations, each with the transform of its own section, and it does not depend on the order of the sections behind the scene (apart from the order of the lights, and the last of several objects carrying one light). It can be put together exactly if nothing it refers to is missing. Names that are left out are filled in so that they fit together.", "quantifier": "all scene files (JSON documents), all orders of their sections, all orders in which the renderer goes through its tables", "why_tests_cant": "There is no bound on the number of sections, their order and the names used in them; tests run the files of a few scenes.", "anchors": ["src/parsers/json_parser.cpp: JsonParser::parse_and_run, actually_parse", "src/api/api.cpp: fr_scene, fr_object, fr_mesh, fr_emitter, fr_integrator, fr_camera, fr_media, fr_accel, flush_renders"]}
{"id": "C122", "title": "The timing report adds up", "statement": "Every line of the timing report is the length of time during which that stage was running; stages that run inside another one add up to no more than it; the total is the time the job took; a caller who asks for the times gets them; and the report is aligned.", "quantifier": "all sequences of timer calls, clock readings, jobs and frame counts", "why_tests_cant": "Durations and interleavings of timer calls are unbounded; double counting and stalled sums only show over long runs.", "anchors": ["src/stats/clocker.cpp: Clocker::start_clock, end_clock, return_results, ClockerResults::print_results", "src/parsers/json_parser.cpp: parse_and_run", "src/api/api.cpp: flush_renders", "src/integrators/integrator.cpp: render"]}
{"id": "C123", "title": "Pictures are linear in the light", "statement": "With the same scene, camera and random numbers, the picture rendered under a lighting that is s times one lighting plus another (a factor for each colour channel; lamps, glowing surfaces and surroundings; a lamp that is off has intensity zero) is s times the picture under the one plus the picture under the other, in every pixel. So dimming, tinting and mixing light can be done on the finished pictures, and a scene without light is black. It holds for the path, Whitted and volumetric integrators, for all lights and ways of sampling them, with any filter, with and without tiles.", "quantifier": "All scenes, cameras, streams of random numbers, bounce limits, filters, image sizes, lightings and factors", "why_tests_cant": "Lightings, scenes and random numbers are unbounded, and a shortcut that looks at the brightness of the light would show only in the few pixels where it decides differently.", "anchors": ["src/integrators/path_unidir.cpp:28-145", "src/integrators/whitted.cpp", "src/integrators/volpath_trans.cpp", "src/scene.cpp:361-632", "src/emitters", "src/integrators/integrator.cpp:39-130", "src/render_pool.cpp:18-100", "src/integrators/photon.cpp:52-175"]}
{"id": "C124", "title": "Smoke from a volume file", "statement": "A medium whose density is read from a volume file has, at every point, the weighted mean of the eight voxels around that point of the file's float grid called \"density\": it stays within the range of the voxels' values, equals them at voxel centres and has no jumps; other grids do not matter; a file without such a grid is reported as an error; and the density reports its maximum.", "quantifier": "every volume file (any list of named grids), every grid of voxel values, every world-to-index map and every point", "why_tests_cant": "Tests sample a few points of a few files; the claim is about every point of every file, and about files nobody tried, such as ones without the expected grid, where the outcome is undefined and may look fine.", "anchors": ["src/media/density_funcs/vdb_density.cpp:OpenVDBDensity", "include/feign/media/density_func.h:OpenVDBDensity", "src/api/api.cpp:fr_medium_density", "src/media/standard.cpp:Media::preProcess"]}
{"id": "C125", "title": "Surfaces do not shadow themselves", "statement": "From a point that the renderer has found on a surface, a ray that leaves to the outer side (towards a light, or as the next segment of a path) is not reported as hitting that same surface, for spheres, boxes and other curved shapes given by distance functions and for triangles: a lone sphere is lit by every light above its horizon, and its light arrives undimmed.", "quantifier": "all scenes of well-formed distance-function shapes and all triangles, all hits, all directions that leave to the outer side", "why_tests_cant": "Self-shadowing depends on tiny offsets against the size and the curvature of a shape and on the direction of the light; a picture from one set-up says nothing about the other sizes, hit points and directions", "anchors": ["src/accel/ray_sdf.cpp:SDFAccel::intersect", "src/accel/ray_sdf.cpp:SDFAccel::sd_normal", "src/shapes/objmesh.cpp:ObjMesh::intersect", "src/scene.cpp:Scene::intersect_transmittance"]}
{"id": "C126", "title": "A scene moved as a whole gives the same picture", "statement": "If every surface, every light and the camera's eye and target are moved by the same vector, the rendered picture does not change: every ray meets the same surfaces at the same distances with the same normals, every light gives the same samples, and the picture is the same sample for sample for the same random numbers. (In single precision this stops being true far from the origin.)", "quantifier": "all meshes, distance-function shapes, kinds of light, look-at cameras with any lens, materials, filters, image sizes, sample counts, random streams, and displacement vectors", "why_tests_cant": "A test can move a few scenes by a few vectors; the claim is about every scene and every vector", "anchors": ["src/accel/ray_sdf.cpp: SDFAccel::intersect, build", "src/shapes/objmesh.cpp: intersect", "src/cameras/perspective.cpp: sampleRay", "src/api/api.cpp: fr_camera", "src/scene.cpp: eval_one_emitter", "src/integrators/path_unidir.cpp: Li", "src/integrators/integrator.cpp: render"]}
{"id": "C127", "title": "Objects that a ray does not meet do not change what it meets", "statement": "Adding objects that a ray does not meet does not change whether the ray hits something, how far away, where and which of the other objects.", "quantifier": "all scenes, all added objects at any place in the list, all rays that do not meet the added objects", "why_tests_cant": "A test adds a few objects to a few scenes; that no unrelated object can ever hide or shift another one is a statement about all of them", "anchors": ["src/shapes/objmesh.cpp: intersect", "src/accel/ray_embree.cpp: intersect", "src/accel/ray_sdf.cpp: SDFAccel::intersect, sd_evaluate"]}
{"id": "C128", "title": "The unit of length does not matter", "statement": "A scene in which every length (vertices, shape sizes, positions of lights and camera, lens, focal distance, clipping distances) is multiplied by the same positive number, and the powers of point-like lights by its square, gives the same picture for the same random numbers: rays meet the same things at the scaled distances, lights give the same radiance, and paths collect the same light.", "quantifier": "all positive scale factors, meshes, distance-function shapes, lights of every kind, cameras, rooms, random streams, picture sizes and filters", "why_tests_cant": "It relates every scene to infinitely many scaled copies of it; tests compare single pictures, and fixed thresholds in the code only show in units nobody tried.", "anchors": ["src/shapes/objmesh.cpp:ObjMesh::intersect", "src/accel/ray_sdf.cpp:SDFAccel::intersect", "src/emitters/point.cpp:sample_nee", "src/emitters/mesh.cpp:sample_nee", "src/cameras/perspective.cpp:sampleRay", "src/scene.cpp:eval_one_emitter", "include/feign/common.h:Epsilon"]}
{"id": "C129", "title": "The size of the picture decides how finely the view is sampled", "statement": "Changing the picture size without changing its proportions does not change what is in view: corresponding film positions get the same rays, and the average of the pixels that replace one pixel has the same mean as that pixel. Changing the height alone adds or removes rows above and below and leaves the others as they are.", "quantifier": "all cameras, lenses, placements, picture sizes, magnifications, film positions, numbers of samples and lawful integrators", "why_tests_cant": "Relates renders of all sizes of the same scene; the means are integrals over all random streams.", "anchors": ["src/cameras/perspective.cpp:preProcess", "src/cameras/perspective.cpp:sampleRay", "src/integrator.cpp:render", "src/filters/box_filter.cpp"]}
{"id": "C130", "title": "A scene turned as a whole gives the same picture", "statement": "If everything is turned about the origin, the camera with it, then turned rays meet the same things at the turned places with the turned normals, the same light arrives from the turned directions, and the pictures tend to the same limit as the number of samples grows. A mesh that is also reflected is met alike but is inside out.", "quantifier": "all rotations (any axis and angle), meshes, shapes other than boxes, lights, cameras, scenes of diffuse, mirror and glass surfaces, and almost all random streams", "why_tests_cant": "Relates renders of all scenes in all orientations; tangents depend on the orientation, so single renders differ and only means and limits agree.", "anchors": ["src/shapes/objmesh.cpp:ObjMesh::intersect", "src/shapes/sdf_sphere.cpp", "src/scene.cpp:eval_one_emitter", "src/cameras/perspective.cpp:sampleRay", "src/math/coord_frame.cpp", "src/integrators/path_unidir.cpp:Li"]}
{"id": "C131", "title": "A higher bounce limit only adds light", "statement": "Raising the maximum number of bounces of the path integrator, or of the volumetric integrators, never takes light away: with the same random numbers each camera ray brings back at least as much in every channel, and every pixel's limit for many samples is at least as high. With limit 0 the picture is black, with limit 1 it shows only emission and direct light. If surfaces send on at most a share rho < 1 of what reaches them, what a limit of n bounces leaves out is at most rho^n of the most light any ray can carry.", "quantifier": "all scenes and samplers with non-negative answers, all pairs of limits, all random streams (rays); all lawful scenes, cameras, picture sizes and almost every stream (pictures)", "why_tests_cant": "A test compares a few limits on a few scenes at a finite sample count, where noise hides or even reverses the difference; the claim is about every limit and the limit of many samples.", "anchors": ["src/integrators/path_unidir.cpp:28-145", "src/integrators/volpath.cpp:26-210", "src/api/api.cpp fr_integrator 593-674"]}
{"id": "C132", "title": "Sampling a lamp finds the same light as hitting it", "statement": "In scenes of diffuse, mirror and glass triangles, some of which are lamps, the light that a diffuse surface gets from random points on the lamps is on average exactly Lambert's integral of what the lamps emit along the rays that hit them: nothing is counted twice or lost between light samples and rays. So the picture tends to the filtered solution of the rendering equation, an equation that mentions no light samples and has only one bounded solution, up to the bounce limit and the cut of very dim paths.", "quantifier": "all lists of triangles with area, all non-negative colours, all environments, all rays, all cameras, filters of the default kind, picture sizes and bounce limits, almost every random stream", "why_tests_cant": "A test renders a few scenes at finite sample counts, where a wrong normalisation of one lamp hides in noise; the claim equates two integrals for every scene.", "anchors": ["src/scene.cpp:445-535", "src/scene.cpp:634-690", "src/emitters/mesh.cpp:33-102", "src/integrators/path_unidir.cpp:28-145", "src/bsdfs/diffuse.cpp"]}
{"id": "C133", "title": "A white object under an even sky cannot be seen", "statement": "In a scene without lamps whose surfaces have no colour above one, no pixel of a path-traced picture is brighter than the brightest part of the sky. If moreover the sky has one colour and the object bulges outwards, the object shows exactly its own colour times that of the sky; a white object cannot be told from the sky. Both hold for every sequence of random numbers and every number of samples, not only on average.", "quantifier": "all lamp-free scenes of diffuse, mirror and glass surfaces (first part), all outward-bulging lists of diffuse and mirror triangles (second part), all bounce limits (at least two in the second part), all sampler outputs, cameras, picture sizes and sample counts", "why_tests_cant": "The furnace test of a renderer compares a few noisy pictures with a grey image; whether a rare sequence of random numbers gives a brighter pixel cannot be settled by running it.", "anchors": ["src/integrators/path_unidir.cpp:28-145", "src/bsdfs/diffuse.cpp:20-47", "src/bsdfs/mirror.cpp:18-51", "src/scene.cpp:692-707"]}
{"id": "C134", "title": "Pictures of distance function scenes", "statement": "A scene of well-formed spheres, planes, boxes, cylinders and cones with diffuse, mirror and glass materials of colours below one, a bounded sky and point lights that stand apart from the solids has exactly one bounded solution of the rendering equation. At a diffuse hit it is emission, the lamps that tracing does not find hidden, and Lambert's integral; at mirrors and glass it is the light along the reflected and refracted rays. The picture that the path integrator takes of it through a perspective camera is defined for every number of samples, and as that number grows each pixel tends to this solution averaged over lens and filter, up to a stated share for the bounce limit and for faint paths.", "quantifier": "Every list of well-formed shapes, every choice of materials, colours, sky and lamps within bounds, every camera, resolution, pixel, bounce limit, and almost every sequence of random numbers.", "why_tests_cant": "A test renders one scene with finitely many samples and cannot tell noise from bias; the limit, its uniqueness and the error bound range over all scenes and all sequences of random numbers.", "anchors": ["src/accel/ray_sdf.cpp:SDFAccel::intersect", "src/integrators/path_unidir.cpp:Path_Unidirectional_Integrator::Li", "src/scene.cpp:Scene::eval_one_emitter", "src/cameras/perspective.cpp:Perspective::sampleRay", "src/shapes/sdf_sphere.cpp", "src/shapes/sdf_plane.cpp", "src/shapes/sdf_box.cpp", "src/shapes/sdf_cylinder.cpp", "src/shapes/sdf_cone.cpp"]}
{"id": "C135", "title": "From the scene file to the picture", "statement": "A scene file in distance function mode declares shapes with simple materials, point lights, skies of one colour, a camera, a sampler and the path integrator, and nothing it refers to is missing. Then the picture that is rendered from it shows these shapes with these materials, lit by these lights and seen by this camera, whatever order the renderer goes through its tables in: as the number of samples grows, each pixel tends to the light that reaches the camera in the described scene, less the share left out by the bounce limit and by the cut of faint paths. Transforms written in an object's section move its shape.", "quantifier": "every scene file of this kind, every order of iterating the renderer's tables, every pixel and colour channel, almost every sequence of random numbers", "why_tests_cant": "There are infinitely many scene files and table orders, and the claim is about the limit of random pictures; a test renders some files once with finitely many samples.", "anchors": ["src/parsers/json_parser.cpp", "src/api/api.cpp:flush_renders", "src/api/api.cpp:fr_camera", "src/api/api.cpp:fr_mesh", "src/api/api.cpp:fr_bsdf", "src/api/api.cpp:fr_emitter", "src/scene.cpp:getShapeMaterialShader", "src/scene.cpp:preProcess", "src/shaders/simple_material.cpp", "src/accel/ray_sdf.cpp", "src/integrators/path_unidir.cpp"]}
{"id": "C136", "title": "Scene files drawn with ambient occlusion or normals", "statement": "A complete scene file in distance function mode names the integrator ao, normal or nice_normal. Then the picture rendered from it shows the declared shapes through the declared camera: with ao each pixel tends to the cosine-weighted part of the hemisphere around the normal from which no declared shape is in the way; with normal and nice_normal it tends to the colour that encodes the normal reported for the hit; each averaged over the lens and the pixel filter, with black where nothing is hit. What is hit lies within two tolerances of a declared shape. Lights, materials and the bounce limit have no influence.", "quantifier": "all scene files of this kind, all orders in which the renderer goes through its tables, all pixels, almost all sequences of random numbers", "why_tests_cant": "A test sees one file, one order of the tables and finitely many samples; the claim is about the limit for every file.", "anchors": ["src/parsers/json_parser.cpp", "src/api/api.cpp:fr_integrator", "src/api/api.cpp:flush_renders", "src/integrators/amb_occ.cpp:Li", "src/debug_integrators/normal.cpp:Li", "src/debug_integrators/nice_normal.cpp:Li", "src/accel/ray_sdf.cpp:intersect"]}
{"id": "C137", "title": "Scene files drawn with Whitted's integrator", "statement": "A complete scene file in distance function mode names the integrator whitted. Then the picture rendered from it shows the declared shapes through the declared camera: each pixel tends to what is seen, averaged over the lens and the pixel filter. What is seen along a ray is the sum of the declared skies where nothing is hit; at a declared diffuse shape the light of the declared lamps that are not hidden and nothing else; at a declared mirror its colour times what is seen in the mirror direction; at declared glass what is seen in the mirror and in the refracted direction in the proportion of the reflectance. Nothing is lost by ending paths at random, however long the chain of mirrors and glass, and also when they are white.", "quantifier": "all scene files of this kind, all orders in which the renderer goes through its tables, all pixels, almost all sequences of random numbers", "why_tests_cant": "A test sees one file and finitely many samples and chains of reflections; the claim is about the limit for every file and chains of any length.", "anchors": ["src/parsers/json_parser.cpp", "src/api/api.cpp:fr_integrator", "src/api/api.cpp:flush_renders", "src/integrators/whitted.cpp:Li", "src/bsdfs/mirror.cpp:sample", "src/bsdfs/dielectric.cpp:sample", "src/accel/ray_sdf.cpp:intersect"]}
{"id": "C138", "title": "Objects of glass let light through", "statement": "In a scene of distance functions, a ray that enters an object of glass goes on inside it to the far surface and leaves there, so that what is behind the object is seen through it. In particular a ray that meets a ball of glass head on brings back the sky behind the ball, weakened only by the reflections at the two surfaces, and a ball whose index of refraction is that of its surroundings is not visible.", "quantifier": "all scenes of well-formed shapes with objects of glass, all indices of refraction, all rays, paths of any length", "why_tests_cant": "Each surface alone behaves as it should; what goes wrong needs the whole chain of hits along a path, for every path length and every pair of indices.", "anchors": ["src/accel/ray_sdf.cpp:intersect", "src/bsdfs/dielectric.cpp:sample", "src/integrators/path_unidir.cpp:Li", "src/integrators/whitted.cpp:Li"]}
{"id": "C139", "title": "Boxes in the plane", "statement": "A box grown from the empty box by points contains each of them and is contained in every box that does; merging two boxes gives the smallest box around both; clipping a box keeps exactly the points that lie between the two corners; asking whether a box contains another is asking whether it contains all its points; asking whether two boxes overlap is asking whether they share a point; the centre of a box lies in it; the major axis is a longest and the minor axis a shortest one. This holds for boxes of floats and boxes of integers.", "quantifier": "all boxes, all points, all sequences of points added", "why_tests_cant": "Tests see some boxes; the minimality of a grown box is about every other box and every sequence of points.", "anchors": ["include/feign/math/bbox.h:BBox2"]}
{"id": "C140", "title": "Waves spread from their start", "statement": "A wave that starts at a point and spreads with some speed has its front, at each time, at the distance from its start that it has travelled. A square wave has its amplitude within a wavelength of the front and is zero elsewhere; a triangle wave has its amplitude at the front, falls evenly to zero at a wavelength from it, and is zero elsewhere.", "quantifier": "all starts, speeds, amplitudes, positive wavelengths, points and times", "why_tests_cant": "A test that starts its waves at the origin, or looks at troughs only, sees nothing wrong; the claim is about all starts and amplitudes.", "anchors": ["include/feign/math/functor.h:SquareWave", "include/feign/math/functor.h:TriangleWave"]}
{"id": "C141", "title": "Scene files drawn with the views of cosines and edges", "statement": "A complete scene file in distance function mode names the integrator cosine_term or barycentric. Then the picture rendered from it shows the declared shapes through the declared camera: with cosine_term each pixel tends to the cosine between the normal of the hit and the direction towards the viewer, with black where nothing is hit; with barycentric only edges of triangles are marked; each averaged over the lens and the pixel filter. What is hit lies within two tolerances of a declared shape.", "quantifier": "all scene files of this kind, all orders in which the renderer goes through its tables, all pixels, almost all sequences of random numbers", "why_tests_cant": "A test sees one file, one order of the tables and finitely many samples; the claim is about the limit for every file.", "anchors": ["src/parsers/json_parser.cpp", "src/api/api.cpp:fr_integrator", "src/api/api.cpp:flush_renders", "src/debug_integrators/cosine_term.cpp:Li", "src/debug_integrators/barycentric.cpp:Li", "src/accel/ray_sdf.cpp:intersect"]}
{"id": "C142", "title": "The order of declarations does not matter", "statement": "Two complete scene files in distance function mode declare the same things, lamps, skies, camera and settings, with the objects in different orders, or they are the same file and the renderer goes through its hash tables in different orders. Then both runs draw the same scene: every ray hits or misses in both, at the same point, with the same normal, material and colour, and the same light arrives, for all random numbers.", "quantifier": "all pairs of scene files of this kind that differ in the order of their objects, all orders of the tables, all rays and random numbers", "why_tests_cant": "The order of a hash table is not fixed by the language, and a test sees the one order its library happens to use; the claim is about all of them.", "anchors": ["src/api/api.cpp:flush_renders", "src/accel/ray_sdf.cpp:sd_evaluate", "src/accel/ray_sdf.cpp:intersect", "src/accel/ray_sdf.cpp:build"]}
{"id": "C143", "title": "The order of lamps and skies does not change the light", "statement": "Two complete scene files in distance function mode declare the same things, lamps, skies, camera and settings in different orders. Lamps stand apart from the solids. Then for every ray the light that paths of any number of segments bring back is the same in both, and so is the light seen through any number of mirrors and panes of glass; these are what the pictures of the path and the Whitted integrator tend to.", "quantifier": "all pairs of scene files of this kind that differ in the order of their objects and emitters, all orders of the tables, all rays, all numbers of segments", "why_tests_cant": "With other orders other lamps are chosen for the same random numbers, so pictures differ by noise; no finite number of samples shows that their limits agree.", "anchors": ["src/api/api.cpp:flush_renders", "src/scene.cpp:addEmitter", "src/integrators/path_unidir.cpp:Li", "src/integrators/whitted.cpp:Li"]}
{"id": "C144", "title": "Copies in the same place change nothing", "statement": "Two complete scene files in distance function mode show the same scene, except that one declares some of its objects more often, with the same shape, place and look under other names. Then both draw the same scene: every ray hits or misses in both, at the same point, with the same normal, material and colour, and the same light arrives, for all random numbers.", "quantifier": "all pairs of scene files of this kind, any number of copies of any of the objects, all orders of the tables, all rays and random numbers", "why_tests_cant": "The number of copies is not bounded and the copies may come anywhere in the tables; tests render some scenes with some copies.", "anchors": ["src/accel/ray_sdf.cpp:sd_evaluate", "src/accel/ray_sdf.cpp:intersect", "src/accel/ray_sdf.cpp:build", "src/api/api.cpp:flush_renders"]}
{"id": "C145", "title": "Only the total intensity in each place matters", "statement": "Two complete scene files in distance function mode show the same objects and the same total sky, and in every place their point lights have the same total intensity, though one may split a light into several or declare dark ones. Then both show the same light: what paths of any length carry back, and what is seen through mirrors and glass, agree along every ray.", "quantifier": "all pairs of scene files of this kind with lights apart from the objects, all numbers of lights, all orders of the tables, all rays and path lengths", "why_tests_cant": "One light is picked at random for each sample, so pictures with few samples differ; the claim is about the limit, for all scenes and all ways to split the lights.", "anchors": ["src/scene.cpp:eval_one_emitter", "src/scene.cpp:choose_emitter", "src/accel/light_naive.cpp:sampleEmitter", "src/emitters/point.cpp:sample_nee", "src/api/api.cpp:flush_renders"]}
