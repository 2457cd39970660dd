{
 "C57": "list induction over the parts; counterexample for parts without common fields",
 "C58": "read-after-write lemmas on the table; frame for other rows",
 "C59": "slice arithmetic commutes with the table's",
 "C60": "quadtree membership invariant; counterexamples for radius and polygon queries",
 "C61": "edge sums: the cut contributes twice with opposite sign",
 "C62": "counterexample for the right border; the answer for any point is that for the points just to its right (every side contributes the same), hence the left and lower border of convex polygons",
 "C63": "counterexample; partial for polygons without holes",
 "C64": "counterexample for the last row; partial for the others",
 "C65": "counterexample; arithmetic for boxes inside the grid",
 "C66": "winding count of the rounded ring; for vertices at corners of cells it is the winding number of the foot of the cell (the crossings of a row cancel); for vertices anywhere, the part of each side in the strip below the centres is left or right of the box, and rounding a vertex to a row cancels between its two sides; counterexamples",
 "C67": "case analysis of the chained comparison; counterexample",
 "C68": "algebra on the affine transform",
 "C69": "algebra; counterexample for skew",
 "C70": "counterexample; partial for the checks that exist",
 "C71": "finite tables, all entries",
 "C72": "invariant along insertions; counterexample after the first split",
 "C73": "fuel bound from the depth of the tree",
 "C74": "telescoping sum of turns; counterexample at the date line",
 "C75": "case analysis on arcs; counterexample for opposite ends",
 "C76": "induction over the ring with an unwrapped-longitude invariant; counterexamples",
 "C77": "case analysis; counterexample",
 "C78": "pointwise case analysis of the stencils; counterexample for divergence",
 "C79": "shape arithmetic; counterexamples",
 "C80": "atan2 algebra; counterexample (mirrored)",
 "C81": "norm inequality; counterexample with one missing component",
 "C82": "induction over features and fields",
 "C83": "invariant over histories of assignments; counterexample after an assignment",
 "C84": "real analysis with atan2 in polar form",
 "C85": "as C84; counterexample on a meridian",
 "C86": "Minkowski inequality; counterexample with mixed ranks",
 "C87": "half-angle identities, arccos",
 "C88": "algebra and atan2; counterexamples",
 "C89": "cross products; arcs as angle ranges; counterexample for latitudes",
 "C90": "counterexample; partial when all pairs cross",
 "C91": "induction over the vertices",
 "C92": "loop invariant over gaps; counterexample for tiny lines",
 "C93": "loop invariant with remainder; counterexample for short segments",
 "C94": "spherical trigonometry over \u211d; equator of every ellipsoid",
 "C95": "spherical trigonometry; great circles as `arc` in \u211d\u00b3",
 "C96": "fundamental theorem of calculus for the area under a great circle; list induction; counterexamples",
 "C97": "symmetries of the configuration; fixed point of the iteration on spheres; counterexample",
 "C98": "affine dependence of each side's contribution; induction over the ring and over nested polygons",
 "C99": "C98 along the part, C36 for the sweep, C26 for the index; counterexamples",
 "C100": "as C99",
 "C101": "induction over the arguments; common fields by C64's notion of a table; counterexamples for polygons",
 "C102": "the sum of squares of the built system equals the misfit; strict convexity through midpoints for uniqueness",
 "C103": "bisection invariant: the lowest position stays in the interval; convexity-like valley shape; the sphere satisfies it",
 "C104": "scalar-product form of arcs, Clairaut's relation for the peak, mirror image for the south, loop invariant; counterexample",
 "C105": "Model of the geo interface dictionaries and of from_shape for all six geometry kinds with properties, data and coordinate system; case analysis and induction on the rings, with the ring constructor as a parameter; the lost parts as general theorems.",
 "C106": "Model of the GeoJSON feature written, of the division of its properties when read, and of the table constructor of C57; induction over dictionaries with distinct keys; the failing cases as general theorems.",
 "C107": "The model of as_geojson returns the geometry after the call; equality by case analysis, and for collections with fields the changed attributes of every part.",
 "C108": "Model of the XML tree that is built and of the reader; induction over points, segments, tracks and routes with a relation between what is written and what is read; the failures as general theorems.",
 "C109": "Model of the three add methods over the attribute table of C51; induction over fields and vertices with the iteration order as a parameter; the failures as general theorems.",
 "C110": "Model of resample over the sampling of C22; floor arithmetic for the counts, the box of centres from C19; the failing cases as general theorems.",
 "C111": "Corollary of C110 with exact counts; the cell of each centre from uniqueness of cells.",
 "C112": "Model of resample with the bilinear kernel of C24; the surrounding centres as specification.",
 "C113": "Model of the two operators over the band arrays of C12 with broadcasting of single bands; pointwise equality.",
 "C114": "Loop invariant over the rows for running minima and maxima; the wrong starting value as a hypothesis and as general counterexamples.",
 "C115": "Model of the masks and of the reductions over all bands; fold of max and min over lists.",
 "C116": "Rounding to even and its half-step bound; sampling at the centres of the moved grid by C22.",
 "C117": "Model of the comparison methods branch by branch over values with negative zeros and systems with identities; case analysis over types; the failing cases as general theorems.",
 "C118": "Hash functions of strings, numbers and bytes as parameters; congruence from equality; the failing cases for any hash that separates two inputs.",
 "C119": "Model of Python's slice arithmetic; the picked vertices as specification; integer arithmetic over bounds and steps.",
 "C120": "Model of the constructors with the conversion of coordinates as a parameter; pointwise equality of lists.",
 "C121": "Induction over the running minimum of argmin with the distance as a parameter in any linear order.",
 "C122": "State machine of geometries with references to mutable dictionaries and tables; an invariant ties equality of references to families computed from the calls alone; exact effect of each assignment by induction over histories.",
 "C123": "Model of moving part by part over the tables of C30 and C58; pointwise equality of columns.",
 "C124": "Model of parse_ellipsoid over words of characters with the full tables; an invariant of the loop over the axes shows that the early exit does not matter. `float` is a parameter.",
 "C125": "Model of the conversions to and from OGR geometries; what OGR keeps is a parameter with stated assumptions (positions and closed rings), with a driver that meets them. Induction over lists and rings.",
 "C126": "Model of fields and rows on top of C54 and C82; the table kept by OGR is a parameter with stated assumptions.",
 "C127": "Model of str.replace on lists of characters; replacing goes word by word. Reading uses C124.",
 "C128": "Refinement: the table represents a list of records, every change keeps this, every query reads it off; induction over histories.",
 "C129": "Case analysis of the model of _validatetypes; isinstance is a parameter.",
 "C130": "Case analysis of the model of sample over the ways to give positions; conversion of coordinates is a parameter with stated assumptions; the nearest value comes from C17.",
 "C131": "Composition of the models of to_points (C93), sample and setfield (C28); column names are shown to differ by injectivity of decimal notation.",
 "C132": "Heap model in which freeing or touching dead memory and writing past an array are faults; the quadtree annotated with addresses simulates the model of C24 step by step, in separation-logic style (the memory of the tree and the rest); induction over splits, insertions and points.",
 "C133": "Model of the pools with their resizing; invariant of a pool; the search loop simulates that of C24; induction over the search and over the list of queries.",
 "C134": "Model of rt_free over named blocks on the trees of C26; no block of children is ever freed (induction over the traversal); a double free is computed for 51 equal boxes.",
 "C135": "The search loop on pools simulates that of C26 and C27; induction over its rounds.",
 "C136": "The sum of the azimuth steps telescopes: it is 360 times the number of sides that pass due north clockwise; induction over the ring. The azimuth is a parameter; the violations use the spherical azimuth.",
 "C137": "Arcs are combinations of the two end directions with coefficients that are not negative; the test of longitudes decides the signs of these coefficients. The computed direction is perpendicular to both normals, although cross3 has a wrong sign, because the sign is wrong twice. Trigonometry over the reals.",
 "C138": "The invariant of the sweep of C22 (which segments are in the list after each group of events) is shared; with at most one segment of each line above a longitude, the neighbours of a new segment are all there is. C137 translates tests into arcs.",
 "C139": "Central projection to a plane: great circles become lines, the order of azimuths from the leftmost vertex and the test by azimuths become the turns of the images, so that the proof of C46 (now over any ordered field) applies to the images; convex combinations come back as cones. The lemma on the scan shows where a repeated vertex breaks the correspondence.",
 "C140": "Loops over vertices; induction with the sum so far, for an arbitrary distance. Metric facts (reversal, subsequences, chords) from symmetry and the triangle inequality, which C86 gives for the plane.",
 "C141": "Float/: every operation on coordinates goes through a rounding function with relative error 2^-53, monotonic and exact on 53-bit numbers; round-half-even on 53 bits is defined and shown to be one. Relative errors are multiplied through the formulas of positions.",
 "C142": "Coordinates in whole multiples of a power of two: sums and products are exact by size bounds; a rounded quotient of two such numbers stays on its side of every whole and half number, so ceilings, floors and rounding agree and the rounded program equals the exact one. Counterexamples with the concrete double rounding by kernel evaluation.",
 "C143": "As C142, by induction on the list of grids (union of extents, accumulation loop); the test of the offset is decided by the gap 2^-20 of non-integers.",
 "C144": "As C142, with half units for centres; bounds on the centres of the new grid keep all intermediate results within 53 bits.",
 "C145": "Float/QuadTree: insertion and division with rounded midpoints. Invariant: every box is wide enough for the spacing, so the rounded midpoint of a box is strictly inside it and division separates points after boundedly many halvings. Counterexamples by kernel evaluation; the endless one by induction on the fuel.",
 "C146": "Float/Single: rounding to 24 bits as a monotonic function; overlap is strict inequality between bounds, which monotonic rounding can only lose. Counterexamples by kernel evaluation.",
 "C147": "Error of a rounded product of two rounded differences is at most 2^-51 of the product; if the exact difference of the two products is larger, the computed sign is right and the counters agree edge by edge; mutual induction over nested polygons. Counterexamples by kernel evaluation.",
 "C148": "fmod is exact and one rounded addition follows for negative remainders; range by monotonicity, error by adding up three rounding errors; exactness in units by size bounds. Counterexamples by kernel evaluation.",
 "C149": "Without crossings the loop is the exact one (a difference of at most 180 stays so when rounded), and the reduction moves each limit by two rounding errors; in units by induction over the vertices with growing bounds.",
 "C150": "The formula depends only on the canonical configuration of a side, which is the same for the side turned round, shifted or mirrored, and on the order of the longitudes, which gives the sign; sides on a meridian give 0. Sums over permuted lists of sides; induction over nested polygons. Counterexample by cancelling the two parallels.",
 "C151": "Case split on the kinds of the two keys; the slices expand to the positions of the specification, and the generator agrees with center_coords entry by entry. Counterexamples for every regular transform by linear arithmetic.",
 "C152": "Induction over the fields and over the rows of a column; the encoder accepts exactly the accepted values. Injectivity from the columns of equal objects. Nesting is refuted for every table because no value of a table is a list.",
 "C153": "Loop invariant of the scan over positions: it returns true iff some part from the current position on is equal; equality of parts is C117. Counterexample for all collections by C117_violated_holes.",
 "C154": "Six rounding errors as factors 1+d; pi cancels, and the product differs from the true fractional column by at most 2^z/2^50. Order from monotone rounding; corners in units of 2^-z. Counterexamples by kernel evaluation.",
 "C155": "Errors as factors (1+u)^n - 1 of sums of absolute values, with rules for rounding, adding and multiplying; sums by induction over the edges. In whole units every intermediate result is a whole number of units below 2^53; mutual induction over nested polygons. Counterexamples by kernel evaluation.",
 "C156": "Each vector product is off by at most (1+u)^4 - 1 of the size of its products; beyond twice that, signs and the comparison of quotient and 1 are right. In whole units the products are exact, and a quotient of whole numbers above 1 exceeds it by more than the rounding error. The rest is C34. Counterexamples by kernel evaluation.",
 "C157": "Geometries are lists of flat or tall coordinates, the conversion of one position is a parameter. The loops are computed by induction; the specification lists the vertices with their heights. Counterexamples hold for all geometries with heights or holes.",
 "C158": "By C157 for the second operand.",
 "C159": "Polygon objects with the flag of their coordinate string; mutual induction over sub-polygons relates contains to the region of C98. Lines and collections never set the flag, so that the counterexamples hold for all of them; the queries of C99 and C100 are evaluated on two parts by the kernel.",
 "C160": "Vec/Systems.lean: polygons as a tree in which each node has its own coordinate system, containment and area branch by branch, and the construction by the shapefile reader. Inside is an inductive relation; containment is proved equal to it by mutual induction over the tree. The failures are proved for every file with a hole.",
 "C161": "Vec/CrossSystem.lean: the four queries with a system for each geometry and a conversion as parameter, over the models of the sweep (C96), the quadtree (C24) and containment (C38). Completeness for affine conversions rests on a half-plane argument: a point separated from all vertices by a line can leave the box without meeting the boundary (C98).",
 "C162": "Vec/Nested.lean: values as trees, the two functions by mutual recursion. Nested is an inductive relation between a value and its vertices in reading order; proved by induction on it.",
 "C163": "Vec/CrsText.lean: str.replace on lists of characters, the constructors' attributes and the two getters; the spatial reference library is a structure of functions with stated laws (Agrees) and a concrete instance. Replacement is proved to leave texts without the pattern alone, and computed on definitions with arbitrary further parameters.",
 "C164": "Grid/Apply.lean on the band model of C01-C08: the mask of data, the read through a 3-D mask and the write of a vector through it. The read of one band is shown to list the cells in row-major order; for several bands the counts cannot all fit (two bands would be disjoint parts of the mask), so the write raises.",
 "C165": "Grid/Sharing.lean: a heap of bands, grids that refer to them, and all calls that make or change grids. Refinement to a model in which grids are values, by an invariant (no band in two grids, the user's free bands unchanged) kept by every call.",
 "C166": "Grid/CopySystem.lean: deepcopy of the system as a new object with equal attributes, and the comparisons and conversions at the head of each lookup, with the model of systems of C157-C161. By cases on the kind of system.",
 "C167": "Grid/ExtentIn.lean: the box of the four converted corners, for extent and clip. A function that goes one way along both axes takes its extremes over a box at corners; with C19 and C12 for the grid's own system. A parabola as conversion for the violations.",
 "C168": "Float/Sample.lean: the kernels of C16 with each operation rounded. Error bounds by counting roundings (growth, as in C155), exactness by units (as in C142), violations by evaluation of the kernel on a constant array.",
 "C169": "Float/Length.lean: the loops of C140 with each operation rounded and the square root a parameter with stated assumptions (someRoot meets them). Error bounds over the reals by counting roundings, exactness by units, violations by evaluation with any such root.",
 "C170": "Grid/Typed.lean: the grids of C05, C13, C18 and C113 over integers, with each assignment and sum converted to a type of n bits. Proved from the theorems on those operations and modular arithmetic.",
 "C171": "Vec/AlongEnds.lean: the loops of C92 and C93 with a bound on the rounds; termination by the distance left, non-termination by an invariant under which the loop condition stays true.",
 "C172": "Float/Affine.lean: rows of the matrix times vertices with each product and sum rounded from left to right (no fused multiply-add); error by growth lemmas, bounding boxes by monotonicity of rounding, the way back by exactness in units.",
 "C173": "Float/Surface.lean: the kernels of Grid/Surface.lean with the cast and every operation rounded, in a precision of at least 24 bits; error by counting roundings, sign by monotonicity, units by exactness.",
 "C174": "Float/Nearest.lean: proj2, pt_nearest_planar and _nearest_to_point with every operation rounded; the error of the foot by counting roundings, the choice of an end by comparison with the true foot, the loop over segments by induction.",
 "C175": "Geod/AreaSeries.lean: the series is differentiated and compared with the difference quotient of a Taylor polynomial by ring; the remainder by its differential equation; zones by the fundamental theorem of calculus; the excess by Bessel's identity; the error by the mean value inequality.",
 "C176": "Geod/Poly.lean, SeriesTerms.lean, SeriesBounds.lean, ForwardSeries.lean: the error terms are polynomials whose normal form is computed by the kernel (decide +kernel on a verified normalizer), which bounds them for all arguments; roots and quotients by algebra; the inverted series by Taylor's formula; lengths and longitudes by the mean value inequality.",
 "C177": "Geod/InverseSeries.lean: induction on the rounds of the loop; the triangle that is left satisfies Clairaut's relation up to a sign, which the longitude decides; the longitude on the sphere is shown to need no reduction by an intermediate value; the error bounds of C176; symmetries of geodesics undo the canonical configuration.",
 "C178": "Vec/Crossings.lean, Vec/CrossingsProps.lean: case analysis of the slopes for one side, induction along the vertices; parity by comparing the sides that cross the upward ray and those that cross the ray to the right with the ends in the quadrant between the rays, summed round the ring.",
 "C179": "Geod/SphereAzimuth.lean: the components of the second position along the directions up, north and east at the first one; the azimuth is the polar angle of the last two. The decorator for sequences is modelled with its errors.",
 "C180": "Float/Hull.lean: the code of convexhull with every operation rounded and atan2 a parameter. Two directions between vertices in whole units differ by at least 2^-48 radians (cross product against the lengths), more than twice the error of a computed azimuth; cross products are exact. The scan is then that of C46.",
 "C181": "Float/SphereDist.lean: the code with every operation rounded and the functions of math as parameters. Relative errors are carried through the haversine formula, absolute ones through the law of cosines, and turned into errors of angles by bounds on arccos and arcsin. The counterexample uses Taylor bounds for one sine and cosine.",
 "C182": "Vec/FlatDist.lean: both methods over real numbers, with conversion between systems as a parameter; compared with the distance of Mathlib's Euclidean space.",
 "C183": "Float/TileRow.lean: the code with every operation rounded, and tan and log as parameters. The error of the angle is bounded, carried through log tan by the quotient sin(a-b)/(cos a sin b), and through the products; the result is compared with arsinh(tan(latitude)), the ordinate of the Mercator projection. The counterexample bounds exp, sin and cos by partial sums of their series.",
 "C184": "Float/TileCorner.lean: the code with every operation rounded. arctan(sinh m) has slope at most 1 and a relative error of a tangent is at most that error of the angle; the rest uses the bounds of C183. Float/TileCornerFail.lean: the violation, by bounds to 20 places for one tile and monotony of rounding.",
 "C185": "Vec/ShapeName.lean: the names that are handed to the driver when writing and reading, over a disk that maps paths to contents; by cases on the extension.",
 "C186": "Band/ShapeProps.lean: the first band has the size of the grid after any history (invariant of C01); iteration and reading by C08 and C05."
}