# Formal model of FeignRenderer: design

The source is read as text from `/repo`; it is never built or run. Everything below is about a Lean 4
model of that source. `properties.jsonl` lists the properties, `MANIFEST.json` maps each to theorems.

## Trusted base

* Lean 4.33.0 kernel and the Mathlib definitions that occur in theorem statements.
* Axioms: only `propext`, `Classical.choice`, `Quot.sound`. No own axioms, no `sorry`, no
  `native_decide`/`bv_decide`. `Verif/Audit.lean` prints the axioms of every property theorem.
* The reading of the C++: every definition in the model cites the lines it models.
* Arithmetic. `Float` in the code is IEEE single precision. Unless said otherwise the model computes in
  an arbitrary ordered field (or in the reals where square roots or transcendental functions occur),
  i.e. exactly. NaN, infinities, overflow and rounding are outside the model unless a theorem mentions
  them. Where the property survives rounding we prove it for an arbitrary monotone rounding function
  (a parameter `fl` of the definitions concerned), which covers IEEE round-to-nearest on finite values.
  Where not-a-number or infinite values decide the outcome they are explicit values of the model
  (`Option`, `Ext`, `WithTop`, `Fl`).
* C++ `int` is `Int` without overflow, unless a definition says otherwise (seeds, casts).
* External libraries (Embree, rapidjson, imedit, pcg32) are parameters: arbitrary functions,
  or functions with an explicitly stated assumption.

## Conventions

* Undefined behaviour of the C++ (null dereference, out-of-range access, use of an uninitialised value,
  popping an empty vector) is a separate outcome `ub` of the model, never a default value.
* `throw new X` is the outcome `throw`. Nothing in the code catches it (the only handler,
  `render_pool.cpp`, catches `std::exception` by reference, not pointers).
* `_partial` on a theorem name means that the property as listed is only partly proved. When the code
  violates the listed property, a theorem named `..._refuted` or `not_...` proves the negation on a concrete witness and
  the `_partial` theorem says what does hold.
* Layout: one directory per area with `Model.lean` (definitions, with citations), `Spec.lean` where a
  separate specification is needed, `Lemmas.lean` (helpers) and `Props.lean` (property theorems with
  their non-vacuity examples).

## Plan per property

| id | model | proof |
|----|-------|-------|
| C01 | `initialize_pool` as two nested index lists with `min` clamping | each pixel lies in exactly one tile, by division algorithm |
| C02 | `evaluate_pool` as a state machine driven by an arbitrary oracle of finished-flags; popping an empty list is `ub` | invariant: dispatched ++ waiting is a permutation of the tiles; witness of `ub` for more threads than tiles |
| C03 | splat loop bounds with clip and floor, under an abstract monotone rounding | interval reasoning |
| C04 | locked updates as additions to per-pixel accumulators; interleavings as permutations that respect program order | commutativity; result depends on the multiset of updates only |
| C05 | accumulate then divide | induction over samples; convex-combination bound |
| C06-C08 | `DiscretePDF1D` as lists; `sample` loops as bounded recursion | telescoping sums, monotone search invariant; witness for the index-returning overload |
| C09 | index `int(u*n)` | floor bounds, interval measure |
| C10 | `local_space(..).min(0).max(0)` clamp chain | always cell 0; refutation with a witness |
| C11-C13, C15 | registry: a finite map per kind from names to nodes; each `fr_*` a step | invariant over histories, commutation of steps |
| C14 | `fr_object` recursion including the API timer | refutation (timer) plus naming lemma without timers |
| C16 | API timer flag threaded through all steps | once set by a throw it never clears |
| C17 | transform stack as fold of matrices | induction over commands |
| C18 | `flush_renders` loop writing instance ids | holds when meshes are not shared; witness otherwise |
| C19-C21 | `Matrix4` as 16 entries over a field | `field_simp`/`ring` per entry |
| C22 | `coordinateSystem` over the reals | case split, `nlinarith`/`field_simp` |
| C23-C25 | slab test, expand/merge, split over an ordered field | sign analysis, lattice laws |
| C26-C29 | `sd_evaluate`, marching loop with fuel 2000, primitive distance functions over the reals | induction over steps; Lipschitz bounds; box containment or refutation |
| C30, C31 | closest-hit fold; Moeller-Trumbore over a field | induction; refutation witness for the missing edge test |
| C32 | grid index lists | counting and range lemmas |
| C33, C34 | insertion with displacement | sortedness/permutation; refutation witnesses for the estimators |
| C35 | photon store loop with a bounded buffer where overrun is `ub` | invariant for bounce limit 1; witness otherwise |
| C36 | fuelled loop over an abstract sorted hit list | induction |
| C37-C39 | integrator loop over abstract shading responses | induction over bounces |
| C40 | timer calls as traces over active sets; each Li as a trace-emitting program | balance for every path |
| C41, C42 | local direction formulas over the reals | algebra; refutation of the angle dependence |
| C43-C47 | densities, estimators driven by arbitrary random streams, phase functions | induction over the stream; integrals by the fundamental theorem of calculus |
| C48, C49 | warps and filters over the reals | inequalities |
| C50 | sampler over an abstract generator | stream equality |
| C51 | clamp and truncate | floor bounds |
| C52 | document as list of sections, translated to API calls | structural |
| C53, C54 | vector/complex operators | algebra; refutation witnesses |
| C55, C56 | runner and record codec | refutation witnesses, partial theorems |
| C57 | reductions of vectors (`Math/Vec`) | case analysis over a linear order; witnesses |
| C58, C59 | `PerspectiveCamera` construction and ray generation over the reals (`Camera/`) | affine algebra |
| C60 | warps as maps of the unit square (`Sampling/Warp`) | preimages of zones, Lebesgue measure |
| C61-C63 | `flush_renders` and the destructor over the registry (`Api/Flush`, `Api/Cleanup`) | invariants over the node heap; witnesses |
| C64-C66 | mesh and grid hit data, areas, displaced grids (`Shapes/`) | algebra over ordered fields and the reals |
| C67, C68 | photon emission and scattering loop with fuel (`Photons/Scatter`) | induction over the loop; ends if and only if paths keep landing (`Photons/EndsProps`); divergence witnesses |
| C69, C70 | shadow queries through null surfaces and media (`Scene/Visibility`) | induction over the sorted hit list; witnesses |
| C71 | roulette in the path loop (`Integrators/Roulette`) | measure of the cube of random numbers that reaches a vertex |
| C72, C73 | diffuse, Phong and Blinn lobes (`Bsdf/Lobe`) | substitution integrals over the hemisphere; witnesses |
| C74 | ratio and delta tracking driven by random streams (`Media/Unbiased`) | recursion for the expectation, limit by series comparison |
| C75 | phase function sampling (`Media/Phase`) | distribution functions of the drawn cosine; then the law of the direction over solid angle (`Media/PhaseLaw`) |
| C76 | seed handling from the API to the worker copies (`Sampling/Sampler`) | stream equality; witness |
| C77 | `main` argument loop (`Tools/Tester`) | induction over the argument list; witness |
| C78 | averaging of timing records (`Tools/Record`) | induction over the runs |
| C79, C80 | environment lookup, texture baking (`Textures/`) | trigonometry; loop invariant |
| C81 | OBJ file reader (`Shapes/ObjFile`) against an item-by-item specification (`Shapes/ObjSpec`) | round trip: every file written from vertices, coordinates, normals and `i/j/k` faces reads back as those lists; witnesses for the other face forms |
| C82 | transmittance functions and their dispatch (`Media/TransFunc`) | derivatives and monotonicity of the power law, measure of the sampled shares, bisection invariant; witnesses |
| C83 | what lights answer to a direct light request and show when hit (`Lights/Emitters`) | vector algebra for point, spot and directional lights; substitution in the integral over the triangle (`Lights/TriIntegral`) for area lights; witnesses |
| C84 | direct light from all lights, from one random light, from several (`Lights/Nee`) with ray queries as arbitrary functions | induction over the lights; integral over the choice cells; witnesses |
| C85 | volumetric path loops (`Integrators/VolPath`) against a sum over events (`Integrators/VolSpec`); scene, media and sampler answer arbitrarily | loop invariant over passes, induction; witnesses |
| C86 | the same loop and the path loop | simulation that skips null surfaces |
| C87 | what each event should be worth, next to `VolSpec` | case analysis per event for tidy paths; witnesses |
| C88 | transmittance view (`Integrators/VolTrans`) | case analysis for a slab on the ray; witnesses |
| C89 | sphere shader and mesh preprocessing over numbers with infinities and not-a-number (`Math/Ieee`, `Shaders/Sphere`) against `Shaders/SphereSpec` | induction over faces and over preprocessing calls; case analysis on non-finite numbers |
| C90 | scene queries (`Scene/Visibility`) over the marching accelerator (`Sdf/Query`) | the march does not read the interval; induction over the fuel for endless queries; sphere witness |
| C91 | choice of the wireframe material from the hit weights (`Shaders/Wireframe`) | distances from an edge are proportional to the weight of the opposite corner |
| C92 | preparation of media and what rendering reads from the shared components (`Media/Wiring`) | induction over the order of preparation; exact condition for every medium to keep its settings |
| C93 | emission of photon paths and the final division (`Photons/Emit`, `Photons/Scatter`) | integral over the number that chooses the light; induction over paths, relating the buffer to the paths that filled it |
| C94 | the photon-mapped view (`Photons/View`) | equivalence with the disc estimate plus emission |
| C95 | `EmbreeAccel` and the loop that fills it (`Scene/Hits`); Embree itself is a function with a stated specification | refinement to "nearest hit", index shift by induction over the shapes, refutation for mixed scenes |
| C96 | one bounce of the photon loop (`Photons/Scatter`) | the step computed outright; integral over the roulette number; refutation without red |
| C97 | the two loops that attach area lights to meshes (`Api/AreaLights`), on the session state of C13-C18 | last writer by induction over the objects; exact conditions; refutations by sessions |
| C98 | `Sampling/Warp` as in C48/C60; solid angle built from spherical coordinates (`Sampling/SolidAngle`) | each warp a change of variables onto the spherical chart; rotation invariance of solid angle through volume in space |
| C99 | `Bsdf/Model` samplers as in C72; the path factor of `path_unidir.cpp` | push-forward of the unit square, mixture of two lobes, rotation invariance; refutation by a concrete Phong sample |
| C100 | `Sampling/Stream` (independent uniform numbers as a product measure, programs that draw from it), `Integrators/Walk` (the path loop over a scene), `Integrators/Room` (diffuse, mirror, glass), `Integrators/Lit` (light samples of point lights) | spec `WalkSpec.carried`, `RoomSpec` and `LitSpec`, written without loop, throughput or roulette; induction on the bounce limit, monotone convergence, push-forward of the sampled directions |
| C101 | `Image/Shoot` (the render loop with one sampler handed through), `Integrators/Left` (what the path integrator leaves of the stream), `Sampling/Repeat` (a program run again and again on one stream), `Integrators/MistLeft` (what the volumetric integrator leaves of the stream), `Sampling/Limit` (programs with unboundedly many draws) | spec `ShootSpec.filtered` (ratio of two integrals over the film); passes over the image are independent and identically distributed, strong law of large numbers per pixel of the film, sum over the film, quotient of limits; `Left`: induction on the bounce limit that the remaining stream is fresh |
| C102 | `Image/Shoot` | identically distributed passes; box: weights are 0 or 1 almost surely; refutation for the Gauss filter: one pixel, one sample, light equal to the weight, then variance zero would make the filter constant |
| C103 | `Integrators/Sky` | mean: the two random numbers give the cosine law (C98), frames preserve solid angle; image: C101 |
| C104 | `Integrators/Whitted`, `Integrators/WhittedLeft` | induction on the depth: survival probability, mean with black below depth n; monotone convergence |
| C105 | `Integrators/Mist`, `Integrators/Fog` | the loop is a recursion on the stream; each pass is a fresh program, so its mean is an integral; induction on passes; change of variables for distances (exponential law) and directions (solid angle); monotone convergence |
| C106 | `Camera/LensSpec`, `Sampling/PlaneLaws` | the disk warp pushes the uniform square to uniform area (polar coordinates); camera rays equal the specified lines from the lens to the focus; measurability of the camera; C101 |
| C107 | `Camera/Perspective` | exact depths of the two ends of the range; equality for aperture 0, witness otherwise |
| C108 | runner with its files, home page and test pages as lists of links, images, rows and numbers (`Tools/Site`) | induction over the tests with a frame condition for every file; rows by strong induction on the list |
| C109 | same model; two runs after each other | files of different tests are different when no name ends in an added ending; otherwise concrete clashes |
| C110 | shell words, `rm -rf` and `mkdir` on a list of paths (`Tools/Graphs`) | exact set of paths afterwards |
| C111 | shapes as meshes with or without emitter, or boxes; boxes over scalars with infinities (`Scene/Bounds`) | fold of box expansions; concrete scenes left out |
| C112 | ray generation with a film size changed after the set-up (`Camera/Target`) | film positions rescaled; equality of the views iff the proportions agree |
| C113 | values of the four debug integrators of `Integrators/Model` | colours decoded; distances from edges as in C91; limits of deterministic views by shifting them to be non-negative |
| C114 | the single pass of the sandbox integrator; null pointers as undefined outcome (`Integrators/Sandbox`) | cases of the first hit; agreement with the path integrator for one bounce |
| C115 | `sd_normal` on the values of `sd_evaluate` around a hit of the marching loop; surface points described by a touching ball and a tangent plane, or by a local half space | Sandwich the signed distance between the height over the tangent plane and the distance to the inner ball; central differences; normalisation of a nearby vector |
| C116 | the existing models of materials, phase functions and the mesh test, run there and back | Algebra of the half vector and the mirror direction; Snell's law applied twice; the mesh test in its geometric form (`HitsAt`) |
| C117 | the accumulation loops of both renderers over numbers with infinities and not-a-number, with the messages | A pixel is a fold over the samples whose filter box meets it; values that are not finite are absorbing in sums and products; comparison with the exact render of the repaired samples |
| C118 | Phong and Blinn with any exponent, `powf` as in the C standard, values with infinities and not-a-number | Case analysis on the sign of the base and the exponent; bounds of real powers; agreement with the models of C72/C73 for natural exponents |
| C119 | Render loop with rounding after each operation; rounding to the 24 bits of a `float`, nearest, ties to even | Induction over the samples that meet the pixel with a relative error per operation; Bernoulli's inequality; explicit ties at `2^24` |
| C120 | `PhotonBVH::BVHNode`: lookup by point and `split`; null children make the lookup undefined | Induction over octrees with disjoint octants (C25); the answer is never a node below the one asked |
| C121 | Running a scene file: the parser's calls (C52) carried out on a new session (C11–C13) up to `flush_renders` (C61) | `describe` gives the scene of a list of declarations outright; simulation: every section that fits extends the list by its declaration, every other one fails; then `Complete` (C61) in terms of the declarations |
| C122 | The timers with their readings of the clock (C40 has only the flags), the timers of one job and of the render loop, the printed report | Induction over the calls: the set of instants at which a timer runs has the recorded length; projection to the calls of one timer for the total; rounding of sums to single precision |
| C123 | The integrators, the sampling of lights, the accumulation of images and photon tracing under three lightings related by c = s a + b | Simulation: the three runs go through the same steps with the same random numbers, and every colour they carry stays mixed; photon survival depends on the ratio of powers only |
| C124 | `OpenVDBDensity`: the loop over the grids of a file, the null pointer, trilinear sampling, the member that is never written | Direct; continuity by a locally finite cover by closed cells, one axis at a time |
| C125 | Rays that leave a reported hit: the offset of the reported point along the normal, the marching start, the triangle test | Signed distance is at least the height over a supporting plane; Cramer's rule for triangles; concrete wall and face pairs for the failures |
| C126 | The whole chain from camera to picture, with every place moved by one vector | Each stage commutes with the move (`Moved/Lemmas`, `Moved/SceneLemmas`); for paths by induction on the bounces; single precision: concrete lamp at distance 2^24 |
| C127 | Face loop, mesh accelerator and sphere tracing with and without the added objects | The nearest hit is determined by the set of hits; soundness of marching for distance functions; a floor below the ray as witness for the failure |
| C128 | Meshes, distance functions, lights, camera and paths with every length multiplied by `k` | Homogeneity of the triangle test, uniqueness of signed distances, inverse-square cancellation, correspondence of walks; the program's own lengths as witnesses for the failures |
| C129 | Camera rays for different picture sizes; renders with the box filter of one pixel at two sizes | The camera matrix depends on the proportions only; change of variables on the film and a partition into pixels |
| C130 | A turn as the three directions the axes go to; turned meshes, shapes, lights, cameras and scenes | Rotations keep dot and cross products; averages over a cosine lobe do not depend on the tangents; induction over bounces; law of large numbers |
| C131 | `pathLi` and `volLi` under two limits; solutions of the rendering equation | The sum over vertices has more non-negative terms; geometric bound by induction over bounces; law of large numbers |
| C132 | Lists of triangles as scenes: nearest hit, shadow rays, `eval_one` over the lamps, `MeshEmitter` | Change of variables from the triangle to solid angle; the rendering equation with samples is solved by the solutions of the one without |
| C133 | Path tracing without lamps under an even sky; bulging scenes of triangles | Throughputs never exceed one, by induction over bounces; a ray that leaves a bulging object meets nothing |
| C134 | Scenes of distance functions as the path integrator sees them, through a perspective camera | Sphere tracing depends measurably on the ray; hits stay near the solids, so lamps apart from the solids give bounded light; then the theorems about bounce limits (C131) and lenses (C128) |
| C135 | What is found behind the node pointers of an assembled scene when it is drawn: shapes, looks, lights, camera, limits | The described scene (C121) gives each node's definition by name; following the pointers finds the declared parts; then the pictures of distance function scenes (C134) |
| C136 | Ambient occlusion and the views of normals asking a scene of distance functions; the kind of integrator found behind the pointers | What is found behind the pointers (C135), then the limits of the views (C103, C113) for the hits of sphere tracing |
| C137 | Whitted's integrator in a scene of distance functions found behind the pointers | The light seen through specular surfaces is bounded and solves its own equation; then the limit of C104 and what is found behind the pointers (C135) |
| C138 | The march (`Sdf/Model`) and the glass of `Integrators/Room` along a path | A ray inside a solid stops after one tolerance; a ray that goes on head on meets the same point again, so the light solves x = F y + (1 - F) x; ball as witness |
| C139 | `BBox2` (`Math/Box2`): growing, merging, clipping, containment, overlap, axes | Case analysis per coordinate; induction over the points added; witnesses for overlap and for boxes of integers |
| C140 | `SquareWave`, `TriangleWave` (`Math/Wave`) | Distance from the front in closed form; case analysis |
| C141 | The views of cosines and edges asking a scene of distance functions, from the scene file | What is found behind the pointers (C135), camera directions have length one, then the limits of the views (C113) |
| C142 | Scenes of distance functions with their shapes in two orders, down to the scene file and the renderer's tables | The least distance does not depend on the order, hence marches, hits and normals do not; the look of the hit is that of a shape at this distance; then through what is found behind the pointers (C135) |
| C143 | Scenes of distance functions with their lamps and skies in two orders, down to the scene file | The mean over the choice of a lamp is the sum over all lamps (C100), which has no order; then by induction on the number of segments |
| C144 | Scenes of distance functions in which shapes are listed several times in the same place, down to the scene file | The least distance and the box around everything depend only on which shapes there are; then as for C142 |
| C145 | Scenes of distance functions whose lamps have the same total intensity in every place, down to the scene file | The mean over the choice of a lamp is a sum over all lamps (C100) in proportion to their intensities, hence a sum over places; then by induction on the number of segments |

## What is modelled

Each definition cites the lines it models. By source file:

| source | model |
|--------|-------|
| `src/misc/render_pool.cpp`, `src/integrators/integrator.cpp` | `Pool/`, `Image/` (tiles, scheduling, locks, splatting) |
| `src/filters/*` | `Image/Filter` |
| `src/math/discrete_pdf.cpp`, `src/accel/light_*.cpp`, `src/math/warp.cpp`, `src/samplers/{sampler,independent}.cpp` | `Sampling/` |
| `include/feign/math/{vector,complex,bbox,coord_frame,transform,ray}.h`, `src/math/*.cpp` | `Math/` |
| `src/api/api.cpp` | `Api/` (registry, transforms, render start, clean-up) |
| `src/parsers/json_parser.cpp` | `Parser/` (from the parsed tree on; rapidjson is not modelled) |
| `src/cameras/perspective.cpp` | `Camera/` |
| `src/accel/ray_sdf.cpp`, `src/shapes/sdf_*.cpp` | `Sdf/` |
| `src/shapes/{objmesh,grid_obj}.cpp` | `Shapes/` |
| `src/accel/photon_array.cpp`, `src/integrators/photon.cpp` | `Photons/` |
| `src/scene.cpp` (queries, null surfaces, shadow rays) | `Scene/` |
| `src/integrators/{path_unidir,whitted,amb_occ,volpath,volpath_nonexp,volpath_trans}.cpp`, `src/debug_integrators/*`, `src/stats/clocker.cpp` | `Integrators/`, `Tools/Record` |
| `src/bsdfs/*`, `src/closure/material.cpp`, `src/shaders/{simple,wireframe}_material.cpp` | `Bsdf/`, `Integrators/` |
| `src/media/**`, `include/feign/media/*` | `Media/` |
| `src/emitters/{point,spot,directional,mesh,directional_mesh}.cpp`, `src/scene.cpp` (direct light) | `Lights/` |
| `src/textures/*`, `src/emitters/environment.cpp` | `Textures/` |
| `src/shaders/{interp_verts_to_sphere,wireframe_material}.cpp`, `ObjMesh::preProcess` | `Shaders/` |
| `src/accel/ray_embree.cpp` | `Scene/Hits` (the library's answer is assumed to be a nearest hit) |
| `src/scene.cpp` `preProcess` (object loop), `src/api/api.cpp` `flush_renders` (emitter loop) | `Api/AreaLights` |
| `src/integrators/path_unidir.cpp` with a stream of random numbers and scenes of diffuse, mirror and glass surfaces, with point lights | `Integrators/Walk`, `Integrators/Room`, `Integrators/Lit` |
| `src/integrators/integrator.cpp` with one stream of random numbers | `Image/Shoot`, `Integrators/Left` |
| `src/integrators/volpath.cpp` with `src/media/standard.cpp`, `sampling/analytic.cpp`, `phase.h` as a program on the random stream (what rays hit and the light samples are given from outside; homogeneous media, identity transform) | `Integrators/Mist`, `Integrators/Fog` |
| `src/test/test.cpp`, `src/test/site_assembler.cpp` | files read and written, pages as links, images, rows and numbers (constant text left out), folders of graphs (`Tools/Site`, `Tools/Graphs`) |
| `src/scene.cpp` `preProcess`, `renderScene` | the scene's box (`Scene/Bounds`); the film size of an image handed in (`Camera/Target`) |
| `integrator.cpp:39-130`, `render_pool.cpp:18-100, 228-243` with estimates that are not numbers | `Verif/Image/Spoil.lean` |
| `phong.cpp`, `blinn.cpp` with any exponent | `Verif/Bsdf/Powers.lean` |
| `float` arithmetic: 24 bits, nearest, ties to even; no overflow, no subnormal numbers | `Verif/Math/Single.lean` |
| `src/accel/photon_bvh.cpp` (lookup and split; the rest throws or is empty) | `Verif/Photons/Octree.lean` |
| `src/parsers/json_parser.cpp:24-76` with `src/api/api.cpp` (calls of the parser carried out in a session) | `Verif/Parser/Exec.lean` |
| `src/stats/clocker.cpp:50-86`, `:140-276`, timer calls of `json_parser.cpp`, `api.cpp`, `integrator.cpp:54-129` | `Verif/Tools/Timing.lean` |
| Scenes of one-triangle meshes with mesh emitters; Embree's answers are taken to be the exact nearest triangle | `Integrators/Facets.lean` |
| `include/feign/math/bbox.h` (`BBox2`) | `Math/Box2` |
| `include/feign/math/functor.h` | `Math/Wave` |
| `src/main.cpp`, `src/test/{test,tester}.cpp` | `Tools/` |

## Where the code disagrees with the property

Each line is a theorem (`..._refuted`, `..._ub`, or the exact characterisation) in the file named.

* Pool: fewer tiles than threads pops an empty list (C02); a non-positive tile width never ends (C01).
* Discrete sampling: every number up to 1 selects entry 0 (C06-C08); the reused number can exceed 1.
* Light grid: every point uses the cell at the origin, and the cells do not cover the scene (C10).
* Registry: a repeated object name throws (C14); a rejected scene overwrites the mode flag (C15); meshes used
  by two objects get one object's shading and both transforms (C18, C62); the carrier of an emitter used by two
  objects depends on the order (C13); undefined lights, cameras and filters are null dereferences (C61);
  transmittance function nodes leak (C63).
* Vectors: `!=` means that all components differ (C53); `max()` is the minimum, `maxIndex` mishandles ties (C57);
  in-place complex subtraction adds (C54). Boxes: inverted boxes are hit, `overlaps()` does not test overlap (C23, C24).
* SDF: plane normals that are not unit and boxes given lower corner first are wrong (C28); boxes of planes, boxes,
  cylinders and cones do not contain the shape and clip it (C26, C29).
* SDF queries: the ray's near and far end are ignored, so shapes behind a light shadow it and null shapes make queries
  run forever (C90).
* Wireframe: on signed-distance shapes everything is wire (C91).
* Triangles: the whole parallelogram is accepted, small triangles are missed (C31).
* Photons: 0 nearest keeps one, radius compared with squared distance, farthest photon dropped, buffer overrun,
  0/0 powers, endless tracing (C33-C35, C67, C68).
* Null surfaces: visible surfaces within Epsilon behind one are skipped (C36, C69); a null surface without media is
  a null dereference (C69); the gap between two media is attenuated with the first (C70).
* Integrators: the wireframe shader counts emission twice, null materials lose light, Whitted doubles or drops
  emission (C38); shared timers throw under the thread pool (C40); Whitted's roulette is biased and unbounded (C71).
* Materials: near-grazing glass loses length (C41); reflectance does not depend on the angle and is not a number at
  grazing incidence (C42); Phong returns kd+ks and scatters below the surface; Blinn's density is wrong and it
  leaks (C72, C73).
* Media: densities times extinction exceed the majorant (C43); non-positive steps and negative majorants never
  return (C44); negative steps scatter behind the start (C45); ray marching ignores the step length and the extinction
  enters squared (C46); Eddington is negative (C47); small majorants bias the estimate (C74); phase values belong to
  the mirrored direction (C75).
* Transmittance functions: the linear function's medium density is a box of mass 2e-3 and its surface samples stop
  early; the Davis function reads the red channel only and inside a medium rises again for h < 1/2 (C82).
* Lights: spot and directional lights keep directions of any length, spot lights do not weaken with distance,
  directional mesh lights emit in every direction, area lights of several triangles are sampled off the light (C83).
* Direct light: spot, directional and unseen directional mesh lights read a distance that was never written;
  directions just below the horizon give negative light; the two modes use different normals and treat the light of
  the surface itself differently; `eval_multi_emitters` keeps its first entry only (C84).
* Volumetric paths: crossing a null surface is no bounce, so a path may never end; a boundary on an object with a
  material never switches the medium; a throughput of 0 with a draw of 0 divides by zero (C85). A ray that hits
  nothing ignores the medium of the environment (`volpath.cpp:56-60`, part of the model).
* Light in media: the first scattering point after the camera counts emission twice; light samples of a scattering
  point are used again at a following specular surface; samples are weighted with the phase of another direction; the
  light behind the scattering point is never chosen (C87).
* Transmittance view: wrong piece of the ray for a camera inside the medium or an open mesh, null dereference for a
  boundary with only an outside (C88).
* Sphere shader: it runs before centroid and box are computed, so every coordinate of every mesh it is used on becomes
  infinite or not-a-number; two equally short sides select the third; the radius is a side, not half of it as the
  comment in `shader.h:165-169` says (C89).
* Media: components are shared by name and overwritten by the medium prepared last, so two media that name the same estimator (or both leave it at its default) get the same density, and the choice depends on hash-map order (C92).
* Photon powers: divided by the number of photons wanted instead of paths emitted; only point lights can emit photons (C93).
* Photon-mapped view: light sources and the environment are black, mirrors look diffuse (C94).
* Mixed scenes: a distance function shifts the attribution of hits on every mesh after it (C95).
* Photon roulette: a photon without red is never ended and becomes not-a-number (C96).
* Area lights: of several carriers only one is sampled; without a carrier sampling dereferences null (C97).
* Phong with an odd exponent: `evaluate` is negative more than a right angle away from the mirror direction, `sample` clamps to Epsilon instead (C73, C99).
* Image mean (C102): with the Gauss filter that every scene gets, the mean of a render with a fixed number of samples is not the filtered light, because the sum of weighted radiance is divided by the sum of random weights (`integrator.cpp:110-127`); it is only right in the limit (C101). With the one-pixel box filter it is right for every number of samples.
* Whitted's mean (C104): emission of non-specular surfaces counts twice, of specular ones 19/20 (lost when the path is ended at random, `whitted.cpp:93-97`), and mirrors with reflectance below about 1e-4 are taken for black however bright what they show.
* Radiative transfer (C105): the analytic sampler of distances uses `D * sigma_t` although `D` already contains `sigma_t` (`analytic.cpp:25`, `density_func.h:54-57`), so media that scatter are right only if the coefficients add up to one; and `max()` of a colour is its smallest channel (`vector.h:699-710`) while the returned weight is white, so all channels see the density of the thinnest. Media that only absorb are right. A ray that leaves the scene is not weakened by the medium it is in (`volpath.cpp:56-60`), and the first `Epsilon` of every stretch is skipped. With other phase functions than the isotropic one the lights at a scattering point are weighted with the phase value of the direction drawn next, not of the light (`volpath.cpp:91-104`).
* Depth limits (C107): with an open aperture a camera ray does not cover the depths from `near` to `far`: the limits are
  divided by the depth of the direction through the eye (`perspective.cpp:65, 77-78`) but measured along the direction
  through the lens point.
* Results site (C108): the page of a test called `home` is overwritten; the positive error image on every page is that of
  `test_001` (`site_assembler.cpp:179`).
* References (C109): a test `a_ref` overwrites the reference of `a`; a reference run prints two numbers that were never set
  (`tester.h:18-42`, `site_assembler.cpp:190-191`); `-uri` renders the scene file in the current folder instead of the
  test's (`tester.cpp:39-40`, `test.cpp:80`).
* Graphs (C110): `rm -rf` is given the name of the test relative to the current folder, unquoted, so it deletes something
  else and leaves the old graphs (`site_assembler.cpp:321-324`).
* Scene bounds (C111): meshes without an emitter have no box, so the bounds leave them out; the bounds always hold the origin.
* Images handed in (C112): the film size is replaced after the camera was set up, so pictures of other proportions are
  stretched.
* Debug views (C113): `cosine_term` shows minus the cosine towards the viewer; `barycentric` is white all over on
  distance functions.
* Sandbox integrator (C114): no environment, black behind null surfaces with an empty boundary, null pointers followed
  for null surfaces without a medium.
- C115 (normals on distance planes): the plane's distance is an absolute value, and the difference step equals the hit tolerance, so the six probes straddle the kink. `plane_normal_refuted`: a ray at a right angle lands on the plane in one step, all differences vanish and the reported normal is (0, 1, 0), which lies in the plane. `tilted_plane_normal_refuted`: a plane tilted by 13 degrees seen from straight above gets a normal at 45 degrees. `hit_normal_plane_value` gives the exact answer for every hit.
- C73 (Blinn highlights): the lobe about the half vector is scaled by (n + 2) / 2π, the factor of a lobe about the mirror direction. `blinn_energy` gives the share returned of light along the normal for every even exponent (it tends to four times the specular share); `blinn_energy_refuted`: exponent 4 and a specular share of one half return 17/16. For Phong `phong_energy_partial` bounds the share by kd + ks from every direction.
- C116 (reversed paths): `blinn_reciprocal_refuted` (only one of the two directions is checked against the surface), `glass_reversible_refuted` (the truncated square root flattens directions near grazing, there and back), `one_way_reversible_refuted` (one-way glass, by design).
- C117 (bad estimates stay local): `weightless_sample_refuted` (the loops visit every pixel the filter's box touches and add zero times not-a-number), `weightless_tile_refuted` (the multi-threaded normalisation skips pixels without weight, so they keep it).
- C118 (numbers): `phong_number_refuted` (`powf` of a negative number with an exponent that is not whole; `sample` guards the base, `evaluate` does not), `blinn_number_refuted` (opposite directions have no half vector; `sample` guards this, `evaluate` does not).
- C119 (single precision): `saturated_refuted` (after `2^24` samples of weight one the sums no longer change: `single (2^24 + 1) = 2^24`), `wide_image_refuted` (an image of `2^24 + 4` columns is written outside, because the last column is rounded up to the width).
- C120 (photon octree): `octree_lookup_null`, `octree_lookup_refuted` (`traverse` drops the answer of a single child, and octants share no inner point, so every lookup in a split tree answers null), `traverse_new_undefined` (lookup in a new empty node goes through a null pointer). The class is not used by any integrator.
- C121 (scene files from end to end): `rendered_iff`, `file_builds`, `run_ends`, `sections_any_order`, `first_misfit`, `assembles_iff`; refuted: `default_names_refuted` (a scene that leaves out its integrator asks for "default", an integrator that leaves out its name is called "integrator"). Two objects without a name are called the same, and the second one ends the run.
- C122 (timing report): `timing_goes_through_iff`, `time_recorded`, `parts_le`, `render_stages_le`, `total_exact`, `total_iff`, `report_of_run`, `record_handed_over`; refuted: `total_refuted` (calls made while reading the file are counted twice), `timer_stalls_refuted` (single precision sums stop growing), `record_dropped_refuted` (a caller who renders to files never gets the times).
- C123 (relighting): `path_superposition`, `whitted_superposition`, `vol_superposition`, `path_dark`, `path_tint`, `direct_superposition`, `emission_superposition`, `image_superposition`, `tiles_superposition`, `picture_superposition`, `room_superposition`, `photon_superposition_partial`, `view_superposition`, `nearest_superposition`, `image_stops`, `tiles_stops`; refuted: `separate_lamps_refuted` (taking lamps away instead of switching them off), `photon_tint_refuted` (light that loses a channel turns photons into not-a-number), `image_scale_refuted` (in single precision factors other than powers of two change the rounding).
- C124 (volume files): `file_density`, `file_range`, `file_voxel`, `file_continuous`, `file_monotone`, `missing_file`; refuted: `no_density_grid_refuted` (a file without a float grid called density is accepted and a null pointer followed), `vdb_maximum_refuted` (the reported maximum is an uninitialised member; C43 too).
- C125 (surfaces do not shadow themselves): `flat_no_self_shadow`, `box_no_self_shadow`, `sphere_no_self_shadow`, `lone_sphere_lit`, `curved_no_self_shadow_partial`, `face_no_self_shadow`; refuted: `wall_dark_refuted` (a distance-function plane seen head on blocks every ray that leaves it, because the computed normal lies in the plane), `face_behind_shadows_refuted` (the triangle test accepts the parallelogram, so a face behind the surface can block rays that leave to the front).
- C126 (a scene moved as a whole gives the same picture): `triangle_moved`, `mesh_moved`, `sdf_moved`, `light_moved`, `direct_light_moved`, `camera_moved`, `path_moved`, `moved_picture`, `moved_sdf_picture`; refuted in single precision: `far_away_refuted` (half a unit apart near the origin, stored at the same place after a move by 2^24).
- C127 (objects that a ray does not meet do not change what it meets): `unmet_faces`, `unmet_objects`, `unmet_shapes_partial`; refuted for distance functions: `floor_hides_ball_refuted` (a floor 1.1 tolerances below the ray makes all 2000 steps so short that the loop ends before a ball ten units ahead).
- C128 (the unit of length does not matter): `mesh_scaled_partial`, `mesh_hit_scaled`, `shape_scaled`, `distance_unique`, `light_scaled`, `direct_light_scaled`, `light_table_scaled`, `camera_scaled`, `path_scaled`, `scaled_picture`; refuted where the program compares with lengths of its own: `small_unit_refuted` (triangle test, 1e-8), `floor_unit_refuted` (tolerance of distance functions, 1e-3). `same_power_refuted` shows why the specification multiplies powers by `k²`.
- C129 (the size of the picture decides how finely the view is sampled): `same_proportions`, `taller_picture`, `finer_mean_partial`, `finer_view_partial`. The filter that scenes get is given in pixels, so a finer picture is also filtered more narrowly (`finer_gauss`), and averages of blocks of pixels differ (`finer_gauss_refuted`).
- C130 (a scene turned as a whole): `rotate_turns`, `mesh_turned`, `mesh_hit_turned`, `mirror_inside_out`, `shape_turned`, `light_turned`, `light_table_turned`, `camera_turned`, `path_turned`, `turned_picture`. Refuted: `box_turned_refuted` (boxes are always parallel to the axes, `src/shapes/sdf_box.cpp:22-30`), `same_numbers_refuted` (tangents come from the coordinates of the normal, `src/math/coord_frame.cpp:104-129`, so the same random numbers give other directions).
- C131 (bounce limits): `path_more_bounces`, `path_few_bounces`, `vol_more_bounces_partial`, `more_bounces_picture`, `light_least`, `light_unique`, `missing_light`, `missing_in_picture`, `room_sends`. Refuted: `darker_pixel_refuted` (with few samples and the same seed a pixel can get darker, because longer paths take more of the one sequence of random numbers).
- C132 (lamps): `lamps_agree`, `light_split`, `physical_light`, `physical_least`, `physical_unique`, `physical_picture`. Refuted: `thin_gap_refuted` (lamps closer than `Epsilon` to another object shine through it).
- C133 (furnace test): `no_brighter_ray`, `no_brighter_picture`, `furnace_ray`, `furnace_picture`. Refuted: `furnace_behind_refuted` (surfaces are black from behind).
- C134 (pictures of distance functions): `sdf_picture`, `sdf_equation`, `sdf_surfaces`, `sdf_glass`. What a ray hits is what sphere tracing reports; how that relates to the solids is C26.
- C135 (from the scene file to the picture): `file_drawn`, `file_picture`, `file_picture_solves`, `drawn_light`, `drawn_camera`, `transforms_ignored`. Refuted: `moved_object_refuted` — the transform written in an object's section is stored in the shape (`src/api/api.cpp:1525`) but no distance function reads it, so a moved object is drawn where its shape was declared.
- C136 (scene files drawn with ambient occlusion or normals): `file_found`, `file_ambient`, `file_normals`, `file_nice_normals`.
- C137 (scene files drawn with Whitted's integrator): `sdf_seen`, `sdf_whitted_partial`, `drawn_seen`, `file_whitted_partial`. Mirrors that are almost but not quite black are excluded.
- Glass of distance functions (C138): distances inside a solid are negative and count as hits, and the point of a hit is always moved outwards. A ray inside glass is stopped after one `Epsilon`, wherever the surface is. Head on, white glass shows what a mirror shows, and with equal indices it is black. What is behind a ball of glass is not seen through its centre.
- Settings without effect: `max_time`, `max_heuristic` and `verbose` of the integrators are read from the file and stored, and nothing reads them.
- Flat boxes (C139): `overlaps()` tests containment, `center()` returns nothing, the empty box of integers contains the origin because integers have no infinity.
- Waves (C140): the front is measured from the origin instead of the start, and a crest of a triangle wave is cut off (`min` for `max`): it is zero at the front and negative further away.
- Views `cosine_term` and `barycentric` from scene files (C141): cosines come out negated and the background as minus two, so pictures of solids are black; every point of a solid is marked as an edge, because `its.bary` is not written for distance functions.
- Order of declarations (C142): the renderer goes through hash tables, whose order is not fixed. What is drawn does not depend on it unless shapes that look different come within the tolerance of the tracing of each other at the same depth; where they do, the first in the table is seen (`order_refuted`).
- Order of lamps and skies (C143): the lamp picked for a given random number depends on the order, so single samples may differ (`lamp_samples_refuted`); the light the pictures tend to does not.
- Copies (C144): declaring a thing again in the same place under another name changes nothing for things that are told apart as in C142; views of shapes alone need no such condition.
- Lamps in one place (C145): several lamps in the same place are as bright as one with their total intensity, and dark lamps add nothing, to the light the pictures tend to; single samples may differ (`lamp_samples_refuted`).
* Warps: power-cosine has density zero for the number 0; the triangle density is positive outside (C48).
* Sampler: plain copies lose the count, negative counts become huge (C50), the configured seed is never used (C76).
* Textures: lookups leave images that are empty or wider than 2^24 and fail for not-a-number coordinates (C51); the
  sine texture's blue channel is constant (C80).
* Scene files: an unknown accelerator type is ignored; a texture's scale is ignored without "proxy" and undefined
  with it; meshes and shaders without a type are rejected by their own default; a file that cannot be opened is read
  through a null pointer; timings are dropped by the overload without image; absorption and scattering of media
  cannot be set; the photon integrator gets 0 first-bounce light samples (C52).
* OBJ reader: faces written `i` or `i/j` use the last number given for the missing ones, zero and negative numbers
  wrap around, short vertex lines read 0, and no index is checked against the list it points into (C81).
* Tools: the single-test verdict is inverted, a not-a-number error and a missing directory pass (C55, C77); a missing
  option value is undefined (C77); the timing reader writes past the end and swaps date fields (C56).

## Not modelled

GUI (`imgui`), the constant text of the html pages, file formats of images, Embree internals, the inside of OpenVDB (grids are modelled by their documentation), stubs that only throw
`NotImplementedException` (bidirectional path tracing, light tracing, Latin/Halton samplers, orthographic
camera, distant/interpolated environment emitters).
