# karta: formal model in Lean 4 — design

Source: `/repo` (fortyninemaps/karta, Python + Cython + C headers), read as text only.
Model: `/verif/lean/Verif`, Lean 4.33.0 + Mathlib (one module at a time).

## 1. Layout

For every area `X` of the code:

* `Verif/X/Model.lean`  – definitions that follow the Python/C functions branch by branch.
  Each carries a comment with file and lines, and names its simplifications.
* `Verif/X/Spec.lean`   – small independent vocabulary used to state the properties
  (no reference to the model's helpers).
* `Verif/X/Lemmas.lean` – proofs about the model (helpers).
* `Verif/X/Props.lean`  – property theorems (`C05_…`), each with non-vacuity examples and,
  where the code violates the English property, a counterexample theorem
  (`C04_violated_…`) beside the strongest true statement (`C04_…_partial`).

## 2. Modelling conventions (apply everywhere)

* `float` values are exact rationals `ℚ` (or reals `ℝ` where a square root or a
  trigonometric function is needed). Rounding is modelled only under `Verif/Float` (C141 and later);
  overflow and signed zero are not modelled.
  NaN is modelled explicitly (`Option`) where the code branches on it.
* Python `int` is `Int` (`Nat` where the code guarantees non-negativity).
  `//` and `%` are floor division / modulo (`Int.fdiv`/`Int.fmod`, or `/`,`%` for positive divisors).
* Exceptions are values (`Except Err α`), one constructor per Python exception class.
* numpy arrays are a shape plus an index function; slice assignment checks shapes and
  broadcasts length-1 axes as numpy does. `np.empty` cells are `none` ("uninitialised"),
  so a theorem about a result also says every cell was written.
* C loops and recursions whose termination is not obvious carry a fuel argument;
  termination theorems state that enough fuel exists.
* blosc compress/decompress is a lossless identity; dtype casts are the identity.
* GDAL, OGR, pyproj, coordstring, numpy, json, heapq are outside the model; where the
  code calls them the model uses the documented behaviour and says so.

## 3. Plan per property

| id | what is modelled | how it is proved |
|----|------------------|------------------|
| C01–C03 | `CompressedBand.__init__/_getchunks/setblock/getblock/_store/_retrieve`, `SimpleBand` | refinement: abstraction function band → pixel map; per-chunk step lemma, induction over chunk list, induction over history |
| C04 | same, with out-of-range offsets and Python negative slice bounds | counterexample + partial (in-range rows/columns) |
| C05–C08 | `BandIndexer.__getitem__/__setitem__/masks/__iter__`, `slice.indices`, `range` | arithmetic on slice.indices; frame lemma from C01 |
| C09, C10 | `get_positions_vec`, `center_coords`, `CoordinateGenerator`, `_indices`, `indices` | `field_simp`/`ring`; rounding lemmas for half-even |
| C11 | `aschunks` loop | fuel loop, coverage by division algorithm |
| C12, C13 | `clip`, `resize` index arithmetic | arithmetic; counterexample where indices go negative |
| C14, C15 | `merge`, `gridpoints`, `fillarray_double` | induction over inputs |
| C16, C17 | `sample_bilinear_*`, `sample_nearest` | algebra + convexity; layout counterexample for several bands |
| C18, C19 | `set_nodata_value`, `data_mask(_full)`, `extent` | pointwise; sign-case analysis, counterexample for opposite-sign skew |
| C20 | `mask_poly` | mask = sum of edge contributions, permutation invariance |
| C21 | `to_aai` / `aairead` / `read_aai` line-level | counterexample + partial |
| C22, C23 | geotransform write/read, `GdalFileBand.getblock` | algebra; counterexample for skew |
| C24, C25 | `quadtree.h`, `quadtree.pyx` | structural invariant; soundness/completeness by induction; termination by halving vs. minimal separation |
| C26, C27 | `rtree.h` | counterexamples for completeness; soundness by induction on tree; completeness under explicit tree invariant |
| C28–C31 | `table.py`, `_subset` | list lemmas; set iteration order is a parameter (any permutation) |
| C32, C33 | `vectorgeo.bbox`, `bboxes_overlap`, `_bbox_overlap` | list induction; order reasoning |
| C34–C37 | `intersection.pyx` | linear algebra; counterexamples for endpoints/sweep |
| C38, C39 | `contains.pyx`, `Polygon.contains/area` | edge-sum invariance; convexity argument |
| C40–C43 | `Polygon.area/isclockwise/centroid`, `apply_transform`, `shift`, `rotate` | cyclic-sum algebra |
| C44, C45 | `pt_nearest_planar`, `_nearest_to_point`, `within_distance` | projection optimality; fold minimum |
| C46 | `convexhull` | counterexamples; subset property |
| C47 | `cache_decorator` | invariant over call histories; stale-cache counterexample |
| C48–C50 | `reduce_deg`, `unroll_deg`, `_canonical_configuration`, `crosses_dateline` | floor arithmetic, case analysis |
| C51 | `tile.py` | real analysis (Gudermannian), floor arithmetic |
| C52 | `fzero_brent` | loop invariant |
| C53 | `raster/misc.py` stencils | ring |
| C54–C56 | `_shp.py`, `read.py`, `merge_properties` | list induction |
| C57 | geometry.py: Multipart.__init__, Multipoint.__init__, Multiline.__init__, Multipolygon.__init__; table.py: Table.__init__, Table.updated | list induction over the parts; counterexample for parts without common fields |
| C58 | geometry.py: Multipoint.__getitem__, Multipoint.__setitem__; table.py: Table.get | read-after-write lemmas on the table; frame for other rows |
| C59 | geometry.py: Multipoint.__getitem__, Multiline.__getitem__, Multipolygon.__getitem__; table.py: Table.get, Table.__init__ | slice arithmetic commutes with the table's |
| C60 | geometry.py: Multipoint.within_bbox, Multipoint.within_radius; quadtree.h: qt_search_within, qt_insert, qt_split | quadtree membership invariant; counterexamples for radius and polygon queries |
| C61 | contains.pyx:contains; geometry.py:Polygon.contains; geometry.py:Polygon.area | edge sums: the cut contributes twice with opposite sign |
| C62 | contains.pyx:contains; geometry.py:Polygon.contains | counterexample for the right border; the answer for any point is that for the points just to its right (every side contributes the same), hence the left and lower border of convex polygons |
| C63 | geometry.py:MultiVertexMixin.apply_transform; geometry.py:MultiVertexMixin.shift; geometry.py:Rotatable.rotate; geometry.py:Polygon | counterexample; partial for polygons without holes |
| C64 | grid.py: RegularGrid.vertex_coords | counterexample for the last row; partial for the others |
| C65 | grid.py: RegularGrid.clip | counterexample; arithmetic for boxes inside the grid |
| C66 | grid.py: RegularGrid.mask_by_poly, mask_poly | winding count of the rounded ring; for vertices at corners of cells it is the winding number of the foot of the cell (the crossings of a row cancel); for vertices anywhere, the part of each side in the strip below the centres is left or right of the box, and rounding a vertex to a row cancels between its two sides; counterexamples |
| C67 | grid.py: RegularGrid.to_aai | case analysis of the chained comparison; counterexample |
| C68 | _gdal.py: write; grid.py: RegularGrid.to_geotiff | algebra on the affine transform |
| C69 | read.py: read_geotiff; _gdal.py: read | algebra; counterexample for skew |
| C70 | read.py: from_geotiffs | counterexample; partial for the checks that exist |
| C71 | _gdal.py: gdal_type, numpy_dtype | finite tables, all entries |
| C72 | rtree.pyx: RTree.bbox; rtree.h: rt_insert, rt_adjust_tree | invariant along insertions; counterexample after the first split |
| C73 | rtree.h: rt_insert, rt_choose_leaf, rt_adjust_tree, rt_split_leaf, rt_split_nonleaf, rt_search_within, rt_search_overlapping; pool.h: pool_pop | fuel bound from the depth of the tree |
| C74 | geometry.py: Polygon.ispolar; geodesy.py: unroll_deg | telescoping sum of turns; counterexample at the date line |
| C75 | geodesy.py: isbetween_circular | case analysis on arcs; counterexample for opposite ends |
| C76 | dateline.pyx: bbox; geometry.py: MultiVertexMixin.bbox | induction over the ring with an unwrapped-longitude invariant; counterexamples |
| C77 | geodesy.py: _ellipsoidal_inverse_equatorial | case analysis; counterexample |
| C78 | misc.py: gradient, divergence, _grad, _div; grid.py: RegularGrid.data_mask | pointwise case analysis of the stencils; counterexample for divergence |
| C79 | misc.py: slope, gradient, aspect, _slope | shape arithmetic; counterexamples |
| C80 | misc.py: _aspect | atan2 algebra; counterexample (mirrored) |
| C81 | misc.py: _normed_potential_vectors | norm inequality; counterexample with one missing component |
| C82 | _shp.py: ogr_write, infer_field_type, ogr_write_feature | induction over features and fields |
| C83 | geometry.py: Multipoint.__setitem__, Multipoint.within_bbox; quadtree.pyx: QuadTree | invariant over histories of assignments; counterexample after an assignment |
| C84 | crs.py: CartesianCRS.forward, CartesianCRS.inverse; geodesy.py: plane_distance, plane_azimuth, unroll_rad | real analysis with atan2 in polar form |
| C85 | geometry.py: Point.azimuth, Point.walk, Point.distance | as C84; counterexample on a meridian |
| C86 | geometry.py: Point.distance | Minkowski inequality; counterexample with mixed ranks |
| C87 | geodesy.py: sphere_distance; vectorgeo.pyx: dist_sph | half-angle identities, arccos |
| C88 | geodesy.py: sph2cart, cart2sph; vectorgeo.pyx: sph2cart, cart2sph | algebra and atan2; counterexamples |
| C89 | geodesy.py: intersection_spherical, eulerpole, check_in_segment_range, isbetween_circular | cross products; arcs as angle ranges; counterexample for latitudes |
| C90 | geometry.py: MultiVertexMixin.intersections; geodesy.py: intersection_spherical | counterexample; partial when all pairs cross |
| C91 | geometry.py: Line.cumulength, Line.displacement | induction over the vertices |
| C92 | geometry.py: Line.to_npoints | loop invariant over gaps; counterexample for tiny lines |
| C93 | geometry.py: Line.to_points | loop invariant with remainder; counterexample for short segments |
| C94 | geodesy.py: ellipsoidal_forward, _solve_NEA | spherical trigonometry over ℝ; equator of every ellipsoid |
| C95 | geodesy.py: solve_vincenty | spherical trigonometry; great circles as `arc` in ℝ³ |
| C96 | geodesy.py: spherical_area, _canonical_configuration, solve_vincenty; geometry.py: Polygon.area, segment_tuples | fundamental theorem of calculus for the area under a great circle; list induction; counterexamples |
| C97 | geodesy.py: ellipsoidal_inverse, _canonical_configuration, _solve_NEB, _solve_astroid, _refine_longitudinal_error | symmetries of the configuration; fixed point of the iteration on spheres; counterexample |
| C98 | geometry.py: Polygon.contains; contains.pyx: contains, isleft | affine dependence of each side's contribution; induction over the ring and over nested polygons |
| C99 | geometry.py: MultiVertexMultipartMixin.within; rtree.pyx: RTree.search_overlapping | C98 along the part, C36 for the sweep, C26 for the index; counterexamples |
| C100 | geometry.py: MultiVertexMultipartMixin.touching, touching_bbox; rtree.pyx: RTree.search_overlapping | as C99 |
| C101 | geometry.py: Multipoint.merge, Multiline.merge, Multipolygon.merge | induction over the arguments; common fields by C64's notion of a table; counterexamples for polygons |
| C102 | geometry.py: affine_matrix | the sum of squares of the built system equals the misfit; strict convexity through midpoints for uniqueness |
| C103 | vectorgeo.pyx: pt_nearest_proj | bisection invariant: the lowest position stays in the interval; convexity-like valley shape; the sphere satisfies it |
| C104 | vectorgeo.pyx: bndlat_sph; dateline.pyx: bbox | scalar-product form of arcs, Clairaut's relation for the peak, mirror image for the south, loop invariant; counterexample |
| C105 | geometry.py: __geo_interface__, geomdict, vertices_ring; read.py: from_shape, _from_shape | Model of the geo interface dictionaries and of from_shape for all six geometry kinds with properties, data and coordinate system; case analysis and induction on the rings, with the ring constructor as a parameter; the lost parts as general theorems. |
| C106 | _geojson.py: GeoJSONOutMixin._as_named_tuple, as_geojson; read.py: read_geojson, convert_geometry, convert_feature | Model of the GeoJSON feature written, of the division of its properties when read, and of the table constructor of C57; induction over dictionaries with distinct keys; the failing cases as general theorems. |
| C107 | _geojson.py: GeoJSONOutMixin._as_named_tuple, as_geojson; geometry.py: Multipart.__getitem__ | The model of as_geojson returns the geometry after the call; equality by case analysis, and for collections with fields the changed attributes of every part. |
| C108 | _gpx.py: GPX.as_string, GPX.fromfile, _readproperties, _readextensions, parse_wpt, parse_trk, parse_rte; read.py: read_gpx_tracks | Model of the XML tree that is built and of the reader; induction over points, segments, tracks and routes with a relation between what is written and what is read; the failures as general theorems. |
| C109 | _gpx.py: GPX.add_waypoint, add_track, add_route | Model of the three add methods over the attribute table of C51; induction over fields and vertices with the iteration order as a parameter; the failures as general theorems. |
| C110 | grid.py: RegularGrid.resample, RegularGrid.sample, _resample_like | Model of resample over the sampling of C22; floor arithmetic for the counts, the box of centres from C19; the failing cases as general theorems. |
| C111 | grid.py: RegularGrid.resample | Corollary of C110 with exact counts; the cell of each centre from uniqueness of cells. |
| C112 | grid.py: RegularGrid.resample, RegularGrid.sample_bilinear | Model of resample with the bilinear kernel of C24; the surrounding centres as specification. |
| C113 | grid.py: RegularGrid.__add__, RegularGrid.__sub__ | Model of the two operators over the band arrays of C12 with broadcasting of single bands; pointwise equality. |
| C114 | grid.py: RegularGrid.data_extent, data_bbox | Loop invariant over the rows for running minima and maxima; the wrong starting value as a hypothesis and as general counterexamples. |
| C115 | grid.py: RegularGrid.max, min, minmax, data_mask | Model of the masks and of the reductions over all bands; fold of max and min over lists. |
| C116 | grid.py: RegularGrid._align_origin | Rounding to even and its half-step bound; sampling at the centres of the moved grid by C22. |
| C117 | geometry.py: Point.__eq__, MultiVertexBase.__eq__, Multipart.__eq__; crs.py: CRS.__eq__ | Model of the comparison methods branch by branch over values with negative zeros and systems with identities; case analysis over types; the failing cases as general theorems. |
| C118 | geometry.py: Point.__hash__, MultiVertexBase.__hash__; crs.py: CRS.__eq__ | Hash functions of strings, numbers and bytes as parameters; congruence from equality; the failing cases for any hash that separates two inputs. |
| C119 | geometry.py: MultiVertexBase.__getitem__, Polygon.__getitem__, __iter__; coordstring.pyx: slice, __getitem__ | Model of Python's slice arithmetic; the picked vertices as specification; integer arithmetic over bounds and steps. |
| C120 | geometry.py: Line.__init__, Polygon.__init__, Multipoint.__init__, Line.to_polygon, Polygon.to_line | Model of the constructors with the conversion of coordinates as a parameter; pointwise equality of lists. |
| C121 | geometry.py: MultiVertexBase.nearest_vertex_to, distances_to, any_within_poly | Induction over the running minimum of argmin with the distance as a parameter in any linear order. |
| C122 | geometry.py: Geometry.__init__, Multipart.__init__, apply_transform, __getitem__, _subset, to_line, to_polygon; table.py: Table.__init__, setfield | State machine of geometries with references to mutable dictionaries and tables; an invariant ties equality of references to families computed from the calls alone; exact effect of each assignment by induction over histories. |
| C123 | geometry.py: Multipart.apply_transform, Multiline.__init__, Multipolygon.__init__, merge_properties; table.py: Table.updated | Model of moving part by part over the tables of C30 and C58; pointwise equality of columns. |
| C124 | crs.py: parse_ellipsoid, Ellipsoid, ELLIPSOID_DATA, DATUM_ELLIPSOIDS, crs_from_wkt, GeographicalCRS.__init__ | Model of parse_ellipsoid over words of characters with the full tables; an invariant of the loop over the axes shows that the early exit does not matter. `float` is a parameter. |
| C125 | _shp.py: ogr_write, ogr_write_feature, ogr_asPoint, ogr_asLineString, ogr_asPolygon, ogr_asMultiPoint, ogr_asMultiLineString, ogr_asMultiPolygon, ogr_read_geometry, ogr_read_geometries; read.py: ogr_read_shapefile, _from_shape | Model of the conversions to and from OGR geometries; what OGR keeps is a parameter with stated assumptions (positions and closed rings), with a driver that meets them. Induction over lists and rings. |
| C126 | _shp.py: ogr_write_feature, ogr_read_attributes, ogr_get_fieldtype, FIELDTYPES | Model of fields and rows on top of C54 and C82; the table kept by OGR is a parameter with stated assumptions. |
| C127 | _shp.py: ogr_write; read.py: ogr_parse_srs; crs.py: GeographicalCRS.__init__, parse_ellipsoid | Model of str.replace on lists of characters; replacing goes word by word. Reading uses C124. |
| C128 | table.py: Table.setfield, Table.extend, Table.__setitem__, Table.__delitem__, Table.__getitem__, Table.get, Table.getfield, Indexer.__getitem__; geometry.py: Multipart.d | Refinement: the table represents a list of records, every change keeps this, every query reads it off; induction over histories. |
| C129 | table.py: Table.__init__, Table._validatetypes, Table.types | Case analysis of the model of _validatetypes; isinstance is a parameter. |
| C130 | grid.py: RegularGrid.sample, RegularGrid.sample_nearest; geometry.py: Point.vertex, MultiVertexMixin.coords; utilities.py: _reproject | Case analysis of the model of sample over the ways to give positions; conversion of coordinates is a parameter with stated assumptions; the nearest value comes from C17. |
| C131 | grid.py: RegularGrid.profile; geometry.py: Line.to_points; table.py: Table.setfield | Composition of the models of to_points (C93), sample and setfield (C28); column names are shown to differ by injectivity of decimal notation. |
| C132 | quadtree.h: qt_split, qt_insert, qt_free_node, qt_new_leaf, qt_new_nonleaf, qt_new_bbox, qt_new_position; quadtree.pyx: QuadTree.__cinit__, QuadTree.__dealloc__ | Heap model in which freeing or touching dead memory and writing past an array are faults; the quadtree annotated with addresses simulates the model of C24 step by step, in separation-logic style (the memory of the tree and the rest); induction over splits, insertions and points. |
| C133 | quadtree.h: qt_search_within; pool.h: pool_new, pool_add, pool_resize, pool_pop, pool_destroy; quadtree.pyx: QuadTree.search_within | Model of the pools with their resizing; invariant of a pool; the search loop simulates that of C24; induction over the search and over the list of queries. |
| C134 | rtree.h: rt_free, rt_new_node, rt_new_bbox; rtree.pyx: RTree.__init__, RTree.__dealloc__ | Model of rt_free over named blocks on the trees of C26; no block of children is ever freed (induction over the traversal); a double free is computed for 51 equal boxes. |
| C135 | rtree.h: rt_search_within, rt_search_overlapping; pool.h: pool_new, pool_add, pool_resize, pool_pop, pool_destroy; rtree.pyx: RTree.search_within, RTree.search_overlapping | The search loop on pools simulates that of C26 and C27; induction over its rounds. |
| C136 | geometry.py: Polygon.contains; contains.pyx: contains_proj | The sum of the azimuth steps telescopes: it is 360 times the number of sides that pass due north clockwise; induction over the ring. The azimuth is a parameter; the violations use the spherical azimuth. |
| C137 | intersection.pyx: _intersects_sph, intersection_sph, intersection_meridian; vectorgeo.pyx: cross3, eulerpole, sph2cart, cart2sph | Arcs are combinations of the two end directions with coefficients that are not negative; the test of longitudes decides the signs of these coefficients. The computed direction is perpendicular to both normals, although cross3 has a wrong sign, because the sign is wrong twice. Trigonometry over the reals. |
| C138 | intersection.pyx: intersects_sph, SweepLinePlaceholder, EventQueuePlaceholder; geometry.py: ConnectedMultiVertexMixin.intersects | The invariant of the sweep of C22 (which segments are in the list after each group of events) is shared; with at most one segment of each line above a longitude, the neighbours of a new segment are all there is. C137 translates tests into arcs. |
| C139 | convexhull.pyx: convexhull_sph, isleft_sph; vectorgeo.pyx: azimuth_sph, dist_sph; geometry.py: MultiVertexMixin.convex_hull | Central projection to a plane: great circles become lines, the order of azimuths from the leftmost vertex and the test by azimuths become the turns of the images, so that the proof of C46 (now over any ordered field) applies to the images; convex combinations come back as cones. The lemma on the scan shows where a repeated vertex breaks the correspondence. |
| C140 | vectorgeo.pyx: length; geometry.py: ConnectedMultiVertexMixin.length, Polygon.segments, Polygon.perimeter, Line.displacement, Line.cumulength | Loops over vertices; induction with the sum so far, for an arbitrary distance. Metric facts (reversal, subsequences, chords) from symmetry and the triangle inequality, which C86 gives for the plane. |
| C141 | grid.py: RegularGrid.positions, RegularGrid.indices; crfuncs.pyx: get_positions_vec; coordgen.py: CoordinateGenerator.__getitem__ | Float/: every operation on coordinates goes through a rounding function with relative error 2^-53, monotonic and exact on 53-bit numbers; round-half-even on 53 bits is defined and shown to be one. Relative errors are multiplied through the formulas of positions. |
| C142 | grid.py: RegularGrid.clip, RegularGrid.resize, RegularGrid.extent, RegularGrid.bbox | Coordinates in whole multiples of a power of two: sums and products are exact by size bounds; a rounded quotient of two such numbers stays on its side of every whole and half number, so ceilings, floors and rounding agree and the rounded program equals the exact one. Counterexamples with the concrete double rounding by kernel evaluation. |
| C143 | grid.py: merge, RegularGrid.extent | As C142, by induction on the list of grids (union of extents, accumulation loop); the test of the offset is decided by the gap 2^-20 of non-integers. |
| C144 | grid.py: RegularGrid.resample, gridpoints, RegularGrid.extent, RegularGrid.sample_nearest | As C142, with half units for centres; bounds on the centres of the new grid keep all intermediate results within 53 bits. |
| C145 | quadtree.h: qt_split, qt_insert, get_quadrant; quadtree.pyx: QuadTree.__init__, QuadTree.search_within; geometry.py: Multipoint.within_radius | Float/QuadTree: insertion and division with rounded midpoints. Invariant: every box is wide enough for the spacing, so the rounded midpoint of a box is strictly inside it and division separates points after boundedly many halvings. Counterexamples by kernel evaluation; the endless one by induction on the fuel. |
| C146 | rtree.h: Bbox, rt_search_within, rt_search_overlapping; rtree.pyx: RTree.__init__, RTree.search_within, RTree.search_overlapping, RTree.bbox | Float/Single: rounding to 24 bits as a monotonic function; overlap is strict inequality between bounds, which monotonic rounding can only lose. Counterexamples by kernel evaluation. |
| C147 | contains.pyx: isleft, contains; geometry.py: Polygon.contains | Error of a rounded product of two rounded differences is at most 2^-51 of the product; if the exact difference of the two products is larger, the computed sign is right and the counters agree edge by edge; mutual induction over nested polygons. Counterexamples by kernel evaluation. |
| C148 | geodesy.py: reduce_deg, unroll_deg; crs.py: GeographicalCRS.forward, GeographicalCRS.inverse, ProjectedCRS.forward, ProjectedCRS.inverse; geometry.py: Point.azimuth | fmod is exact and one rounded addition follows for negative remainders; range by monotonicity, error by adding up three rounding errors; exactness in units by size bounds. Counterexamples by kernel evaluation. |
| C149 | dateline.pyx: bbox, crosses_dateline; geometry.py: MultiVertexBase.bbox | Without crossings the loop is the exact one (a difference of at most 180 stays so when rounded), and the reduction moves each limit by two rounding errors; in units by induction over the vertices with growing bounds. |
| C150 | geodesy.py:ellipsoidal_area; geodesy.py:_ellipsoidal_area; geodesy.py:_canonical_configuration; geometry.py:Polygon.area | The formula depends only on the canonical configuration of a side, which is the same for the side turned round, shifted or mirrored, and on the order of the longitudes, which gives the sign; sides on a meridian give 0. Sums over permuted lists of sides; induction over nested polygons. Counterexample by cancelling the two parallels. |
| C151 | coordgen.py:CoordinateGenerator.__getitem__; coordgen.py:coordinate_transformer; grid.py:RegularGrid.coordinates | Case split on the kinds of the two keys; the slices expand to the positions of the specification, and the generator agrees with center_coords entry by entry. Counterexamples for every regular transform by linear arithmetic. |
| C152 | table.py:Table.asjson; table.py:NumpyAwareJSONEncoder.default | Induction over the fields and over the rows of a column; the encoder accepts exactly the accepted values. Injectivity from the columns of equal objects. Nesting is refuted for every table because no value of a table is a list. |
| C153 | geometry.py:Multipart.__contains__; geometry.py:MultiVertexBase.__iter__; geometry.py:Multipolygon.__getitem__ | Loop invariant of the scan over positions: it returns true iff some part from the current position on is equal; equality of parts is C117. Counterexample for all collections by C117_violated_holes. |
| C154 | tile.py:tile_from_point; tile.py:Tile.nw_corner | Six rounding errors as factors 1+d; pi cancels, and the product differs from the true fractional column by at most 2^z/2^50. Order from monotone rounding; corners in units of 2^-z. Counterexamples by kernel evaluation. |
| C155 | geometry.py:Polygon.area; geometry.py:Polygon.isclockwise; geometry.py:Polygon.centroid | Errors as factors (1+u)^n - 1 of sums of absolute values, with rules for rounding, adding and multiplying; sums by induction over the edges. In whole units every intermediate result is a whole number of units below 2^53; mutual induction over nested polygons. Counterexamples by kernel evaluation. |
| C156 | intersection.pyx:intersection; intersection.pyx:iscollinear; intersection.pyx:all_intersections; vectorgeo.pyx:cross2 | Each vector product is off by at most (1+u)^4 - 1 of the size of its products; beyond twice that, signs and the comparison of quotient and 1 are right. In whole units the products are exact, and a quotient of whole numbers above 1 exceeds it by more than the rounding error. The rest is C34. Counterexamples by kernel evaluation. |
| C157 | geometry.py: Point.vertex, MultiVertexMixin.coords, MultiVertexMixin.vertices, Multiline.vertices, Multiline.coords, Multipolygon.vertices, Multipolygon.coords, Multipolygon.__init__; utilities.py: _reproject; crs.py: CartesianCRS.transform, GeographicalCRS.transform, ProjectedCRS.transform | Geometries are lists of flat or tall coordinates, the conversion of one position is a parameter. The loops are computed by induction; the specification lists the vertices with their heights. Counterexamples hold for all geometries with heights or holes. |
| C158 | geometry.py: Point.__add__, Line.__add__, Polygon.__add__ | By C157 for the second operand. |
| C159 | geometry.py: MultiVertexBase.__init__, Polygon.__init__, Line.to_polygon, Multipolygon.__init__, Multipolygon.__getitem__, Polygon.contains; contains.pyx: contains, contains_proj; intersection.pyx: all_intersections, intersects | Polygon objects with the flag of their coordinate string; mutual induction over sub-polygons relates contains to the region of C98. Lines and collections never set the flag, so that the counterexamples hold for all of them; the queries of C99 and C100 are evaluated on two parts by the kernel. |
| C160 | geometry.py: Polygon.contains, Polygon.area, Point.vertex, DEFAULT_CRS; read.py: _from_shape, read_shapefile | Vec/Systems.lean: polygons as a tree in which each node has its own coordinate system, containment and area branch by branch, and the construction by the shapefile reader. Inside is an inductive relation; containment is proved equal to it by mutual induction over the tree. The failures are proved for every file with a hole. |
| C161 | geometry.py: ConnectedMultiVertexMixin.intersects, ConnectedMultiVertexMixin.intersections, ConnectedMultiVertexMixin.bbox, Multipoint.within_radius, Multipoint.within_polygon | Vec/CrossSystem.lean: the four queries with a system for each geometry and a conversion as parameter, over the models of the sweep (C96), the quadtree (C24) and containment (C38). Completeness for affine conversions rests on a half-plane argument: a point separated from all vertices by a line can leave the box without meeting the boundary (C98). |
| C162 | utilities.py: _flatten, _as_nested_lists; geometry.py: MultiVertexBase.__init__, Line.geomdict, Multiline.geomdict, Multipolygon.geomdict; _geojson.py: GeoJSONOutMixin._as_named_tuple | Vec/Nested.lean: values as trees, the two functions by mutual recursion. Nested is an inductive relation between a value and its vertices in reading order; proved by induction on it. |
| C163 | crs.py: CRS.get_proj4, CRS.get_wkt, CartesianCRS.__init__, GeographicalCRS.__init__, ProjectedCRS.__init__; _gdal.py: srs_from_crs | Vec/CrsText.lean: str.replace on lists of characters, the constructors' attributes and the two getters; the spatial reference library is a structure of functions with stated laws (Agrees) and a concrete instance. Replacement is proved to leave texts without the pattern alone, and computed on definitions with arbitrary further parameters. |
| C164 | grid.py: Grid.apply, data_mask_full; band.py: BandIndexer._get_from_array_mask, _set_from_array_mask | Grid/Apply.lean on the band model of C01-C08: the mask of data, the read through a 3-D mask and the write of a vector through it. The read of one band is shown to list the cells in row-major order; for several bands the counts cannot all fit (two bands would be disjoint parts of the mask), so the write raises. |
| C165 | grid.py: RegularGrid.__init__, Grid.copy, Grid.apply, RegularGrid.__setitem__, set_nodata_value, resize, clip, mask_by_poly, __add__; _gdal.py: GdalFileBand.setblock | Grid/Sharing.lean: a heap of bands, grids that refer to them, and all calls that make or change grids. Refinement to a model in which grids are values, by an invariant (no band in two grids, the user's free bands unchanged) kept by every call. |
| C166 | grid.py: Grid.copy, RegularGrid.sample, mask_by_poly, extent, coordinates, clip; coordgen.py: CoordinateGenerator; crs.py: CRS.__eq__, Cartesian | Grid/CopySystem.lean: deepcopy of the system as a new object with equal attributes, and the comparisons and conversions at the head of each lookup, with the model of systems of C157-C161. By cases on the kind of system. |
| C167 | grid.py: RegularGrid.extent, RegularGrid.clip | Grid/ExtentIn.lean: the box of the four converted corners, for extent and clip. A function that goes one way along both axes takes its extremes over a box at corners; with C19 and C12 for the grid's own system. A parabola as conversion for the violations. |
| C168 | crfuncs.pyx: sample_bilinear_double, sample_bilinear_int, sample_bilinear_uint; grid.py: RegularGrid.sample_bilinear | Float/Sample.lean: the kernels of C16 with each operation rounded. Error bounds by counting roundings (growth, as in C155), exactness by units (as in C142), violations by evaluation of the kernel on a constant array. |
| C169 | geometry.py: Point.distance, Line.length, Line.cumulength, nearest_vertex_to; vectorgeo.pyx: length | Float/Length.lean: the loops of C140 with each operation rounded and the square root a parameter with stated assumptions (someRoot meets them). Error bounds over the reals by counting roundings, exactness by units, violations by evaluation with any such root. |
| C170 | grid.py: RegularGrid.__setitem__, set_nodata_value, __add__, __sub__, resize, get_nodata; band.py: BandIndexer.__setitem__, CompressedBand.setblock, CompressedBand.getblock | Grid/Typed.lean: the grids of C05, C13, C18 and C113 over integers, with each assignment and sum converted to a type of n bits. Proved from the theorems on those operations and modular arithmetic. |
| C171 | geometry.py: Line.to_points, Line.to_npoints | Vec/AlongEnds.lean: the loops of C92 and C93 with a bound on the rounds; termination by the distance left, non-termination by an invariant under which the loop condition stays true. |
| C172 | geometry.py: MultiVertexMixin.apply_transform, MultiVertexMixin.shift, MultiVertexMixin.bbox | Float/Affine.lean: rows of the matrix times vertices with each product and sum rounded from left to right (no fused multiply-add); error by growth lemmas, bounding boxes by monotonicity of rounding, the way back by exactness in units. |
| C173 | misc.py: gradient, _grad | Float/Surface.lean: the kernels of Grid/Surface.lean with the cast and every operation rounded, in a precision of at least 24 bits; error by counting roundings, sign by monotonicity, units by exactness. |
| C174 | vectorgeo.pyx: proj2, pt_nearest_planar; geometry.py: Line.nearest_vertex_to, _nearest_to_point, nearest_on_boundary, shortest_distance_to | Float/Nearest.lean: proj2, pt_nearest_planar and _nearest_to_point with every operation rounded; the error of the foot by counting roundings, the choice of an end by comparison with the true foot, the loop over segments by induction. |
| C175 | geodesy.py: _ellipsoidal_area, ellipsoidal_area, _solve_NEA, _solve_NEB | Geod/AreaSeries.lean: the series is differentiated and compared with the difference quotient of a Taylor polynomial by ring; the remainder by its differential equation; zones by the fundamental theorem of calculus; the excess by Bessel's identity; the error by the mean value inequality. |
| C176 | geodesy.py: ellipsoidal_forward, _solve_NEA | Geod/Poly.lean, SeriesTerms.lean, SeriesBounds.lean, ForwardSeries.lean: the error terms are polynomials whose normal form is computed by the kernel (decide +kernel on a verified normalizer), which bounds them for all arguments; roots and quotients by algebra; the inverted series by Taylor's formula; lengths and longitudes by the mean value inequality. |
| C177 | geodesy.py: ellipsoidal_inverse, _solve_NEA, _solve_NEB, _canonical_configuration, solve_vincenty, solve_astroid | Geod/InverseSeries.lean: induction on the rounds of the loop; the triangle that is left satisfies Clairaut's relation up to a sign, which the longitude decides; the longitude on the sphere is shown to need no reduction by an intermediate value; the error bounds of C176; symmetries of geodesics undo the canonical configuration. |
| C178 | intersection.pyx: count_crossings, intersects_cn, isbetween_incl, isbetween_incr | Vec/Crossings.lean, Vec/CrossingsProps.lean: case analysis of the slopes for one side, induction along the vertices; parity by comparing the sides that cross the upward ray and those that cross the ray to the right with the ends in the quadrant between the rays, summed round the ring. |
| C179 | geodesy.py: sphere_azimuth, recurse_iterables; vectorgeo.pyx: azimuth_sph | Geod/SphereAzimuth.lean: the components of the second position along the directions up, north and east at the first one; the azimuth is the polar angle of the last two. The decorator for sequences is modelled with its errors. |
| C180 | convexhull.pyx: convexhull, isleft; vectorgeo.pyx: azimuth, dist2; geometry.py: convex_hull | Float/Hull.lean: the code of convexhull with every operation rounded and atan2 a parameter. Two directions between vertices in whole units differ by at least 2^-48 radians (cross product against the lengths), more than twice the error of a computed azimuth; cross products are exact. The scan is then that of C46. |
| C181 | geodesy.py: sphere_distance | Float/SphereDist.lean: the code with every operation rounded and the functions of math as parameters. Relative errors are carried through the haversine formula, absolute ones through the law of cosines, and turned into errors of angles by bounds on arccos and arcsin. The counterexample uses Taylor bounds for one sine and cosine. |
| C182 | geometry.py: MultiVertexMixin.flat_distances_to; geometry.py: MultiVertexMixin.distances_to; geometry.py: Point.distance | Vec/FlatDist.lean: both methods over real numbers, with conversion between systems as a parameter; compared with the distance of Mathlib's Euclidean space. |
| C183 | tile.py:tile_from_point | Float/TileRow.lean: the code with every operation rounded, and tan and log as parameters. The error of the angle is bounded, carried through log tan by the quotient sin(a-b)/(cos a sin b), and through the products; the result is compared with arsinh(tan(latitude)), the ordinate of the Mercator projection. The counterexample bounds exp, sin and cos by partial sums of their series. |
| C184 | tile.py:Tile.nw_corner; tile.py:Tile.bbox; tile.py:tile_from_point | Float/TileCorner.lean: the code with every operation rounded. arctan(sinh m) has slope at most 1 and a relative error of a tangent is at most that error of the angle; the rest uses the bounds of C183. Float/TileCornerFail.lean: the violation, by bounds to 20 places for one tile and monotony of rounding. |
| C185 | _shp.py:ShapefileOutMixin.to_shapefile; _shp.py:write_shapefile; _shp.py:ogr_write; read.py:get_filenames; read.py:ogr_read_shapefile | Vec/ShapeName.lean: the names that are handed to the driver when writing and reading, over a disk that maps paths to contents; by cases on the extension. |
| C186 | band.py:BandIndexer.shape; band.py:BandIndexer.__iter__; band.py:BandIndexer.__getitem__ | Band/ShapeProps.lean: the first band has the size of the grid after any history (invariant of C01); iteration and reading by C08 and C05. |

Status and what is missing, per property, is in `MANIFEST.json`.

## 4. Trusted base

* Lean's kernel (4.33.0) and Mathlib's definitions of ℚ, ℝ, lists, trigonometric functions, interval integrals.
* The axioms `propext`, `Classical.choice` and `Quot.sound`, and no others; section 7 lists them per theorem. No axiom is added, no proof
  uses `sorry`, `admit`, `native_decide` or `bv_decide`.
* The fidelity of the definitions to the lines they cite, and the conventions of section 2. Section 6 lists the functions that are
  modelled and those that are not.
* For the modules under `Verif/Float` (C141 and later): that double arithmetic is a rounding in the sense of `Rounding` (relative error
  2^-53, monotonic, exact on 53-bit multiples of powers of two) applied to each operation as written, without overflow, underflow, fused or
  extended operations, and that `//` and `%` on floats give the floor of the exact quotient of their operands and its remainder; that
  conversion to C `float` is a monotonic rounding to 24 bits (`Single`, C146).
* For C169: that the C library's `sqrt` is a `Root` (a floating-point number within two units of relative rounding, exact where the root is
  representable); `someRoot` shows that such a function exists.
* About libraries, as written beside each definition: `pyproj.transform` and `Geod` are functions of their arguments that return tuples,
  `copy.deepcopy` of an object that wraps a C pointer raises `TypeError`, and `CoordString(v)` without `ring=True` is not a ring.

## 5. Where the code departs from the property

Every item was found while modelling. "(thm)" marks the ones for which the model has a theorem named `Cnn_violated_…`;
the others restrict a `_partial` theorem or are outside the model.

**Bands** – writing past the last row or column corrupts other chunks (thm, C04); an inverted slice raises `ValueError` and
integer indices wrap modulo the size (C05); masks over three-dimensional blocks do not round trip (C07); `SimpleBand` returns views.

**Tables and parts** – `setfield` on an empty table drops the field; `updated` loses fields of empty tables; `_subset` and
`__setitem__` depend on set iteration order; a `Multipoint` of points without common properties has a table with no rows; a string
property whose length is the number of parts is split into characters; a `Table` argument is not checked for length;
`__setitem__` with a tuple stores a generator as the row.

**Quadtree** – leaves of capacity 1 split for ever; `within_radius` compares degrees with metres; `within_polygon` with the index
drops points on the border of the polygon's box; `bboxes_overlap` works in 32-bit floats (not modelled).

**R-tree** – both seeds of a split can be item 0, so that the last geometry is lost and the first stored twice (thm, C26); the "fill
to two" path leaves a stale box; flat boxes never overlap; `max_results` is ignored; the box is a placeholder after the first split
of the root; `rt_split_nonleaf` updates the parents of the seeds only, so that
later insertions extend the box of the wrong node and geometries are missed (thm, C26).

**Segments and polygons** – `iscollinear` is true for any two horizontal segments at one height and false for any two segments drawn to the lower left, even identical ones; the sweep
loops for ever when a line retraces a directed segment, never compares overlapping vertical segments, misses a vertical segment
against one that ends at the same abscissa, and misses every pair of
lines that touch end to end from opposite sides, since the ending one is removed before the beginning one is compared (thm, C36); `contains` leaves out the right and upper border; `apply_transform`, `shift` and
`rotate` drop holes; 3x4 matrices do not compose on two-dimensional geometry; `pt_nearest_planar` is wrong for horizontal segments
shorter than 1e-4 and raises for segments of no length; the closing side of a polygon is left out of `nearest_on_boundary`;
`within_distance` uses `all`; a geometry with one vertex has distance -1.

**Hull** – a nearer vertex on the lowest ray replaces the farther one; collinear input loses an end; `IndexError` for repeated
leftmost vertices with one direction and for a single vertex.

**Grids** – the last row of `vertex_coords` is not filled; `extent` is wrong for skews of opposite sign; the side to which an index
lookup on a cell border rounds depends on parity; `aschunks` with its default size never ends on grids with fewer than four rows or
columns; `clip` beyond the first row or column misplaces data; `clip` of a skewed grid keeps cells outside the box; `resize` and
`merge` raise for negative row spacing and misplace the cells of skewed grids (thm, C13, C14); `merge` drops a pixel in all bands if one is missing; bilinear sampling raises in the first
row of centres and for one row or column; `sample_nearest` scrambles several bands; `mask_by_poly` is upside down for negative row
spacing, wrong for oblong cells, ignores holes, counts crossings in 8 bits and decides a cell by the middle of its lower side instead of
its centre (thm, C66).

**Files** – the output of `to_aai` cannot be read back and starts with the bottom row; `sx != sy != 0.0` accepts skewed grids;
`read_geotiff` negates skews and misplaces the corner; a single row or column cannot be read in memory; `from_geotiffs` never compares
transforms; NaN nodata values make its check depend on order; a shapefile attribute `id` collides with the reserved column; names
can exceed ten characters; an attribute first set in the 101st feature is dropped; an empty list raises `IndexError`.

**Surfaces** – `divergence` ignores the mask; `gradient` of one row has two rows; slopes on the border are extrapolated and can be
negative; `aspect` is mirrored north-south; the light vector of `hillshade` is not a unit vector.

**Caches** – `Multipoint.__setitem__` leaves cached values and the quadtree stale; `Line.extend` replaces the coordinates by an array
on which `bbox` and `length` raise.

**Geodesy** – `ispolar` is true for every ring across the date line; `isbetween_circular` is false for opposite ends; `Point.azimuth` is
NaN on a common meridian; distances between 2-D and 3-D points violate the triangle inequality; `cart2sph` returns latitudes above
90, wrong longitudes for slightly negative x and raises at the poles; `intersection_spherical` returns latitudes above 90 for southern
crossings; geographical `intersections` raises unless every pair of segments crosses; `bndlat_sph` is wrong when the arc crosses the equator
and passes its peak; `to_points` forgets the remainder over short segments; `to_npoints` returns too few points when the step is below 1e-8;
`ellipsoidal_inverse` divides by zero on a sphere when the latitudes nearly cancel; areas of polygons (also on ellipsoids, thm, C150) across the equator or the date line
are wrong; `ellipsoidal_area` mixes degrees and radians; a segment that runs southwards along a meridian is never reported to cross anything.

**Queries on parts** – `within` returns lines that run across holes; `within` and `touching` never return horizontal or vertical lines.

**Merging** – `Multipolygon.merge` of polygons with different ranks raises `NameError` (`imin`); a multipolygon made from polygons with
holes raises `AttributeError` on `vertices` and `merge`; `Polygon + Polygon` drops the holes of both.

**GeoJSON and the geo interface** – `as_geojson` of a collection updates its properties in place with all data columns, so that afterwards
`geom[i].properties` holds whole columns. Holes read from GeoJSON are plain lists: `contains` and `as_geojson` raise `AttributeError`.
Rings of multipolygons gain a vertex on each round trip. Export of a polygon that is not in WGS84 drops its holes, and with
`force_wgs84=False` and no URN every export raises `NameError` (`geoms`). `from_shape` returns Cartesian geometries without data.

**GPX** – reading any file with a waypoint raises `AttributeError` (`parse_wpt` uses `wpt.properties` and `self.waypoints`). Tracks, segments
and routes read from a file gain a property `extensions`. `add_track` refuses lines (no attribute `data`), loses heights unless a field
known to GPX is present and does not convert coordinates to longitude and latitude; `add_route` raises `TypeError` for any attribute.

**Resampling and grid arithmetic** – `resample` to one column and several rows returns one row; `resample` of several bands mixes the bands,
as the array of samples is reshaped in the wrong order; on skewed grids it extends beyond the cells; rows that run south are returned
running north. `data_extent` starts the right edge at the y anchor (`rx = y0`), is off by a row at the bottom when rows run south and raises
`IndexError` for several bands. `grid + grid` adds nodata values as if they were data. `max` and `min` ignore cells that miss data in any band,
`minmax` does not. `_align_origin` raises when the moved grid has no centre on the original.

**Objects** – `==` of polygons ignores holes; `==` of multipoints with as many points and different ranks raises `ValueError`; geographical
systems compare by identity, so that `==` is not transitive across a projected system. Equal geometries can have different hashes, as the
name of the system and the bytes of `-0.0` enter; `hash` of a multiline or multipolygon raises `AttributeError`. `polygon[:]` drops the
holes. `Line(points)` and `Polygon(points)` do not convert coordinates, `Multipoint(points)` does. `polygon.to_line().to_polygon()` has one
vertex more.

**Sharing** – a shifted multipoint shares its table with the original: assigning `moved[0] = point` changes the attributes of the original.
Vertices, slices and converted geometries share the dictionary of properties. Moving a multiline or multipolygon turns its properties into
data columns and replaces columns of the same name.

**Ellipsoids** – datum `carthage` raises `KeyError` (`clark80` is not a known ellipsoid; it should be `clrk80`). `+f=0` raises
`ZeroDivisionError`. `+alpha=30` between `+a` and `+b` is taken for the major axis. `+R=` and `+rf=` are refused. `crs_from_wkt` puts every
geographical system on the datum WGS84.

**Shapefiles** – multipolygons are lost on writing, as they are written as a multilinestring (`ogr.Geometry(5)`) to which OGR adds no
polygons. Third coordinates are not written. Geometries of another type than the first are refused by OGR without notice. Dates and times
are read as `None`, missing text as `"None"`. `+proj=latlong` is written as `+proj=latlongg`; Cartesian coordinates are written as
longitude and latitude on WGS84. Files on a sphere raise `ZeroDivisionError`, files on any datum are read as WGS84. `write_shapefile`
without geometries raises `IndexError`.

**Tables** – `checktypes=True` refuses every table with values (`isinstance(t, d[i])` has its arguments swapped). `setfield` on a table
whose last row was deleted forgets all other fields. `table[i] = row` stores rows of any length, after which the columns cannot be read.

**Sampling** – `sample(x, y)` with two numbers raises `TypeError` (thm, C130); `sample(xs, ys, crs=Cartesian)` on a Cartesian grid raises
`NotImplementedError` although nothing has to be converted (thm, C130); `profile` without a resolution never returns on grids with a
negative cell size, as `min(transform[2:4])` is negative (thm, C131).

**Memory** – `QuadTree.search_within` never destroys the pool of results: two blocks per search leak (thm, C133). `rt_free` frees neither
arrays of children nor anything of inner nodes; `RTree.__init__` leaks everything if an item has no `bbox`; with 51 equal boxes dropping
the index frees a box twice (thm, C134). `RTree.search_within` and `search_overlapping` leak the box of the query (thm, C135).

**Geographical intersections** – `contains` of a polygon around a pole tells whether no side passes due north of the point clockwise (the
second branch of the loop repeats the condition of the first, and the result is inverted): points inside an eastward ring around the south
pole are outside, points of the meridian 0 far away are inside (thm, C136). Two segments of the same great circle never intersect, and a
segment across the meridian 180 is taken to go the other way around (thm, C137). The order of the sweep line of `intersects_sph` is computed
from the pole of a segment from pole to pole, which is zero, so that heights are NaN (with rounding, NaN or a value at random). Segments of
the same line are tested against each other, so that a line that turns back meets everything whose bounding box overlaps (thm, C138). When
a segment ends, it is tested itself instead of its neighbours, so that crossings are missed (thm, C138). `cross3` has the wrong sign in its
second component; `iscollinear_sph` is never called.

**Convex hull in geographical coordinates** – the azimuth from a vertex to a copy of itself is 0, so `convex_hull()` of a ring whose first vertex
is dented keeps the dent and lists the vertex twice (thm, C139). Across the meridian 180 the scan starts at a vertex that need not be on the
hull (thm, C139). Vertices on the lowest great circle from the leftmost vertex may be lost, as in the plane (C46).

**Lengths** – `length` and `perimeter` ignore the third coordinate while `displacement` and `cumulength` use it: a line straight up has
length 0 and displacement 1 (thm, C140).

**Rounding** – the code divides coordinates by cell sizes and takes floors, ceilings, truncations and remainders of the quotients without
tolerance. With cells of 0.1 (not a double) quotients that should be whole are rounded to either side: `resize` keeps one column too many,
`clip` to reported cell centres loses a column (thm, C142); `merge` refuses aligned grids or puts them one column off, depending on the order
(thm, C143); `resample` at the own spacing loses a column and `gridpoints` raises `IndexError` for a point on the last edge (thm, C144).

**Rounding in indices** – the quadtree divides a leaf at rounded midpoints. Between neighbouring doubles the midpoint is one of them: a leaf
can then lie outside its quadrant and replace it, and its points are lost; with a leaf capacity of at most four the division never ends
(thm, C145). `within_radius` rounds the box to search but not the radius, so the index hides points (thm, C145). The R-tree keeps bounding
boxes as C `float`: geometries smaller than the spacing of single precision (a quarter or half of a metre at UTM northings) are never found, geometries
outside the query are reported as within it, and `RTree.bbox` does not contain its geometries (thm, C146).

**Rounding in containment** – the sign of `isleft` is wrong for points very near an edge, so that a point of a polygon may be in neither or
in both of the parts into which it is cut (thm, C147). The centroid of a square of 1 m at map coordinates such as
(555143.3, 4997514.7) is reported more than 800 m away from it, because the products of coordinates are summed without subtracting a
reference point first (thm, C155). A path and a line that cross in a corner of the path may be reported not to meet (thm, C156).

**Rounding of angles** – `(x + 180) % 360 - 180` gives 180 for the double below -180 and -180 for the double below 180; `x % 360` gives 360
for small negative angles (thm, C148). The same expression at the end of `dateline.bbox` rounds the limits, so that a geometry need not lie
within its own bounding box: the box of longitudes 0 and 0.1 ends at 0.09999999999999432 (thm, C149).

**Coordinates by index** – `grid.coordinates()[-1, 0]` is a row before the first one although `grid[-1, 0]` is the last row; keys beyond the
grid are accepted; slices of one row lose an axis and empty slices raise `ValueError` (thm, C151).

**Tables as JSON** – `Table.asjson` wraps every column in a list of its own, so that the decoded object does not hold the columns; numpy's
unsigned and boolean numbers raise `TypeError` (thm, C152).

**Membership** – a polygon counts as a member of a `Multipolygon` whatever its holes are (thm, C153).

**Rounding in tiles** – the corner of a tile is an exact double, but looking it up may give the tile to the west: this happens for 4 of the
32 columns at zoom level 5 (the counterexample proved is column 1). The double below 180 degrees is looked up in a column that does not
exist (thm, C154).

**Heights and systems** – `vertices(crs)` of lines, polygons and multipoints with heights raises `AttributeError` (the result of a
conversion is a tuple and has no `append`); points and the parts of collections lose their heights. The holes of a `Multipolygon` built from
polygons are stored as `Polygon` objects in their own system: `vertices()` raises, and `vertices(crs)` shows them in the wrong place (thm,
C157). `polygon + polygon` drops the holes of both (thm, C158).

**Open polygons** – the coordinate strings of `Multipolygon` parts and of polygons made with `to_polygon` are not marked as rings:
`contains` raises `TypeError` for all of them, and their closing side is missing in `intersects`, `intersections`, `touching` and `within`
(thm, C159).

**Holes of polygons read from shapefiles** – `read_shapefile` sets the coordinate system of the polygon and not of its holes, which stay
in the Cartesian default: `contains` raises `AttributeError` for every point inside the ring, and `area` subtracts areas in the wrong units
(thm, C160).

**Queries across systems** – `intersects` converts the box of the other geometry but not its vertices, `intersections` converts nothing, and
`within_radius` with an index searches around the coordinates of the centre in its own system (thm, C161). `within_polygon` with an index
searches the box of the converted vertices, which does not hold the polygon when straight sides become curved (thm, C161).

**Empty parts** – `_flatten` and `_as_nested_lists` look at the first item of every part: an empty part raises `IndexError`, so a multiline
with an empty line can be built but not exported (thm, C162, C105, C106).

**Descriptions of systems** – `get_wkt` replaces `latlon` by `latlong` also inside `latlong`: a system made with `+proj=latlong` gets an empty
WKT text (thm, C163).

**apply on several bands** – `Grid.apply` reads all bands into one vector and assigns that vector to each band: it raises `ValueError` for
every grid of two or more bands with two cells of data; in place, bands may have been changed already (thm, C164).

**Grids on files** – a grid read with `in_memory=False` cannot be resized: `resize` calls the constructor of its band class with keywords
that `GdalFileBand` does not have (thm, C165).

**Copies of Cartesian grids** – `Grid.copy` also copies the coordinate system, and Cartesian systems are compared by identity: on a copy of a
grid in the default system (also the result of `apply`), `sample`, `mask_by_poly`, `extent(crs)` and `coordinates(crs)` with geometries or
the system of the original raise `NotImplementedError` (thm, C166).

**Extents and clips in other systems** – `extent(crs)` and `clip(…, crs)` convert four corners only: for conversions that bend the sides of
the box (conic, transverse projections) cell centres lie outside the extent, and clips lack cells of the given box (thm, C167).

**Integer grids sampled one too low** – `sample_bilinear_int` and `sample_bilinear_uint` truncate a sum that rounding may have left just below
an integer: a grid that is 3 throughout is sampled as 2 at position (1.1, 1.2), the point (1.7, 1.6) of a grid at the origin (thm, C168).

**Lengths that depend on the direction** – the sum of `length` is rounded after each segment, so a long segment first swallows the short ones
after it: the line (-2^53,0) (0,0) (1,0) (2,0) has length 2^53, its reverse 2^53 + 2 (thm, C169).

**Nodata values outside the type** – `set_nodata_value(-1)` on a grid of type uint8 stores 255 in the missing pixels but compares with -1: no pixel is
missing any more, and `resize` fills with 255 that counts as data (thm, C170).

**Missing plus missing is data** – `g + h` and `g - h` add the nodata values: with the default nodata value, a pixel missing in both grids holds data
in the sum and in the difference, in every integer type (thm, C170).

**Endless sampling** – `to_points(0)`, `to_points(-1)` and `to_npoints(0)` append points for ever instead of raising (thm, C171).

**Far shifts** – `shift((2.**53, 0))` merges the vertices (0, 0) and (1, 0), and shifting back leaves both at (0, 0) (thm, C172).

**Slopes across equal rows** – `gradient` adds the three cells of the row after in the order middle, right, left, and those of the row before in the order middle, left, right. In single precision the sums of equal rows differ: for columns of 857.3, 251.7 and 587.4 the second component is 1/65536 instead of 0 (thm, C173).

**Lost slopes** – `gradient`, `slope` and `aspect` cast to single precision before taking differences, so elevations of 33554432 and more that differ by one or two are flat (thm, C173).

**Last vertices off their line** – The foot of the perpendicular is computed from the first end of a segment, so the last vertex of a line may have a positive distance to the line, whereas all other vertices are at distance zero: for the line from (-3, 0) to (0.3, 0) the point returned for (0.3, 0) is (0.2999999999999998, 0) (thm, C174).

**A wrong coefficient in the ellipsoidal area** – In `_ellipsoidal_area` the coefficient of `ep2**3 * k2**2` in `C40` is 90/9009; it must be 80/9009. All the other coefficients are right. On the Earth the error is at most some twenty square centimetres per radian (thm, C175).

**Sides that are never counted** – `count_crossings` visits the sides between consecutive vertices but stops one short: the last side of a line and the closing side of a ring are not compared with the ray. The parity of the count therefore depends on the vertex a ring begins with (thm, C178).

**One position and many** – `sphere_azimuth`, `sphere_distance`, `plane_azimuth` and `plane_distance` accept numbers or sequences, but not both in one call: they raise TypeError; sequences of different lengths are cut to the shortest without a word (thm, C179).

**Hulls that lose a vertex to rounding** – `isleft` compares a rounded cross product with zero. With coordinates of 29 bits (say millimetres over 270 km) the hull of (-2^28, 2^28), (0, 0), (2^27 + 1, 2^27), (2^27 + 2, 2^27 + 1) leaves out the third vertex, which lies outside the polygon returned (thm, C180).

**A distance of zero that raises** – `sphere_distance` passes a rounded sum to `acos` without limiting it to 1. The positions (-pi, y) and (pi, y) are the same, but for some latitudes, such as y = 81/32768, the sum is 1 + 2^-52 and the call raises ValueError (thm, C181). Some four in a hundred latitudes are affected.

**Coordinates of two systems subtracted** – `flat_distances_to` does not look at the coordinate system of the point: for a point in another system it subtracts coordinates of different systems and returns numbers without meaning, where `distances_to` converts (thm, C182). A point with a height and vertices without raise ValueError.

**Poles** – `tile_from_point` raises ValueError for the south pole, where `math.log(0.0)` is called (thm, C183); for the north pole it returns a negative row.

**Rows of tiles at borders** – a latitude of 83.97925949886206 degrees, which is what `nw_corner` returns for tiles of row 1 at zoom level 5, lies just north of the border, in row 0. `tile_from_point` returns row 1, with every C library accurate to a unit in the last place (thm, C183). By the same formula in double precision (computed, not proved) the corner (85.05112877980659) of the single tile at zoom level 0 is looked up in row -1, a row off the map.

**Corners of tiles** – `tile_from_point` does not always return the tile whose corner it is given. For the tiles of row 54351 at zoom level 19, the latitude that `nw_corner` returns is looked up in row 54350, the row to the north, with every C library accurate to a unit in the last place (thm, C184). The fault is not rare: by the same formulas (computed, not proved) 25 of the corners at zoom level 7 are looked up in another row.

**Crossings of short segments on the far side** – `cart2sph` takes a component below 1e-4 for zero, whatever the length of the vector. The product of the poles of two segments shorter than half a degree is shorter than that, so that for such segments the longitude always comes from `asin` and is mirrored into -90..90. A piece of the equator and a piece of a meridian that cross at a longitude between 90 and 180 are not found to cross in one order of the lines and are found in the other (thm, C90).
For longer segments a position in the wrong place can be returned: the equator between longitudes 30 and 150 and a segment inclined by 1/200 degree that crosses it at 135 are said to meet at longitude 45 (thm, C89).

**Names of shapefiles** – `to_shapefile` adds the extension `.shp` where it is missing, as `read_shapefile` does; `write_shapefile` does not, so that
a file written with `write_shapefile("lake", …)` is not the file that `read_shapefile("lake")` opens (thm, C185).

**Shape of grids with several bands** – `grid.values.shape` is `(m, n)` for any number of bands, not `(N, m, n)` as its description says (thm, C186).

## 6. Which functions are modelled

Generated from the citations in the comments of the definitions. A function counts as modelled if a definition cites lines of it;
the comment of that definition says what was simplified.

* `crs.py` – modelled: Ellipsoid.__init__, CRS.__str__, CRS.get_proj4, CRS.proj4, CRS.get_wkt, CRS.wkt, CartesianCRS.__init__, CartesianCRS.project, CartesianCRS.forward, CartesianCRS.inverse, CartesianCRS.transform, GeographicalCRS.__init__, GeographicalCRS.project, GeographicalCRS.forward, GeographicalCRS.inverse, GeographicalCRS.transform, ProjectedCRS.__init__, ProjectedCRS.__eq__, ProjectedCRS.__ne__, ProjectedCRS.project, ProjectedCRS.forward, ProjectedCRS.inverse, ProjectedCRS.transform, parse_ellipsoid, crs_from_wkt. Not modelled: none.
* `errors.py` – modelled: none. Not modelled: GeometryError.__init__, GeometryError.__str__, CRSError.__init__, NoIntersection.__init__, GridError.__init__, GridError.__str__.
* `geodesy.py` – modelled: recurse_iterables, .func, cross, sph2cart, cart2sph, unroll_rad, reduce_rad, unroll_deg, reduce_deg, _degrees, _radians, plane_distance, plane_azimuth, sphere_distance, sphere_azimuth, spherical_area, isbetween_circular, eulerpole, check_in_segment_range, intersection_spherical, solve_astroid, solve_vincenty, _solve_NEA, _solve_NEB, _canonical_configuration, ellipsoidal_forward, _ellipsoidal_inverse_equatorial, ellipsoidal_inverse, _ellipsoidal_area, ellipsoidal_area, fzero_brent. Not modelled: none.
* `raster/_aai.py` – modelled: aairead, check_header. Not modelled: none.
* `raster/_gdal.py` – modelled: GdalFileBand.getblock, GdalFileBand.setblock, SRS_from_WKT, numpy_dtype, gdal_type, read, srs_from_crs, write. Not modelled: GdalFileBand.__init__, GdalFileBand.__del__, GdalFileBand.__iter__, GdalFileBand.size, GdalFileBand.dtype.
* `raster/band.py` – modelled: BandIndexer.__getitem__, BandIndexer.__setitem__, BandIndexer._get_from_array_mask, BandIndexer._set_from_array_mask, BandIndexer.__iter__, BandIndexer.shape, BandIndexer.dtype, SimpleBand.__init__, SimpleBand.getblock, SimpleBand.setblock, CompressedBand.__init__, CompressedBand._store, CompressedBand._retrieve, CompressedBand._getchunks, CompressedBand.setblock, CompressedBand.getblock. Not modelled: BandIndexer.__init__.
* `raster/coordgen.py` – modelled: coordinate_transformer, .transformer, .transformer, CoordinateGenerator.__init__, CoordinateGenerator.__getitem__. Not modelled: none.
* `raster/crfuncs.pyx` – modelled: get_positions_vec, sample_bilinear_uint, sample_bilinear_int, sample_bilinear_double, fillarray_double. Not modelled: none.
* `raster/grid.py` – modelled: Grid.max, Grid.min, Grid.minmax, Grid.copy, Grid.apply, RegularGrid.__init__, RegularGrid.__add__, RegularGrid.__sub__, RegularGrid.__setitem__, RegularGrid._equivalent_structure, RegularGrid.values, RegularGrid.set_nodata_value, RegularGrid.center_llref, RegularGrid.coordinates, RegularGrid.center_coords, RegularGrid.vertex_coords, RegularGrid.origin, RegularGrid.resolution, RegularGrid.skew, RegularGrid.data_bbox, RegularGrid.bbox, RegularGrid.extent, RegularGrid.data_extent, RegularGrid.isdata, RegularGrid.data_mask_full, RegularGrid.data_mask, RegularGrid.aschunks, RegularGrid.clip, RegularGrid.resize, RegularGrid._round, RegularGrid.mask_by_poly, RegularGrid.unpack_multipolygons, RegularGrid._resample_transform, RegularGrid._align_origin, RegularGrid.resample, RegularGrid.positions, RegularGrid._indices, RegularGrid.indices, RegularGrid.sample_nearest, RegularGrid.sample_bilinear, RegularGrid.sample, RegularGrid.profile, RegularGrid.to_geotiff, RegularGrid.to_aai, merge, get_nodata, gridpoints, mask_poly. Not modelled: Grid.nodata, RegularGrid.__getitem__, RegularGrid.transform, RegularGrid.size, RegularGrid.nbands, RegularGrid.nodata_value, RegularGrid.corner_llref, RegularGrid.coordmesh, RegularGrid.to_gtiff, newgrid.
* `raster/misc.py` – modelled: _slope, slope, _aspect, aspect, _grad, gradient, _div, divergence, _normed_potential_vectors, normed_potential_vectors, hillshade. Not modelled: none.
* `raster/read.py` – modelled: read_aai, proj4_isgeodetic, read_geotiff, from_geotiffs. Not modelled: none.
* `tile.py` – modelled: Tile.__init__, Tile.__neq__, Tile.nw_corner, Tile.bbox, tile_from_point. Not modelled: Tile.__eq__.
* `vector/_geojson.py` – modelled: crs_from_urn, crs_from_karta, GeoJSONOutMixin._as_named_tuple, GeoJSONOutMixin.as_geojson, GeoJSONOutMixin.to_geojson. Not modelled: none.
* `vector/_gpx.py` – modelled: strip_namespace, GPX.__init__, GPX._readextensions, GPX._readproperties, GPX._readwpt, GPX._dict2gpx, GPX._extensions2gpx, GPX._build_gpx_wpt, GPX._build_gpx_trk, GPX._build_gpx_rte, GPX.fromfile, GPX.parse_wpt, GPX.parse_trk, GPX.parse_rte, GPX.add_waypoint, GPX.add_track, GPX.add_route, GPX.as_string. Not modelled: GPX.writefile.
* `vector/_shp.py` – modelled: ogr_get_fieldtype, get_geometry_type, ogr_get_polygon_points, ogr_read_geometry, ogr_read_geometries, ogr_read_attributes, ogr_write, infer_field_type, ogr_write_feature, ogr_asPoint, ogr_asLineString, ogr_asPolygon, ogr_asMultiPoint, ogr_asMultiLineString, ogr_asMultiPolygon, _isnumpytype, write_shapefile, ShapefileOutMixin.to_shapefile. Not modelled: _isnumpyint, _isnumpyfloat.
* `vector/contains.pyx` – modelled: isleft, contains, contains_proj. Not modelled: none.
* `vector/convexhull.pyx` – modelled: isleft, isleft_sph, convexhull, convexhull_sph. Not modelled: convexhull_simple.
* `vector/dateline.pyx` – modelled: crosses_dateline, bbox. Not modelled: none.
* `vector/decorators.py` – modelled: .replacement_func. Not modelled: cache_decorator, .wrapping_func.
* `vector/geometry.py` – modelled: Geometry.__init__, Rotatable.rotate, Point.__init__, Point.__getitem__, Point.__eq__, Point.__hash__, Point.__add__, Point.__geo_interface__, Point.geomdict, Point.vertex, Point.azimuth, Point.apply_transform, Point.walk, Point.distance, Point.shift, MultiVertexBase.__init__, MultiVertexBase.__hash__, MultiVertexBase.__getitem__, MultiVertexBase.__iter__, MultiVertexBase.__len__, MultiVertexMixin.coords, MultiVertexMixin.vertices, MultiVertexMixin.bbox, MultiVertexMixin.extent, MultiVertexMixin._bbox_overlap, MultiVertexMixin.apply_transform, MultiVertexMixin.shift, MultiVertexMixin._subset, MultiVertexMixin.flat_distances_to, MultiVertexMixin.distances_to, MultiVertexMixin.nearest_vertex_to, MultiVertexMixin.any_within_poly, MultiVertexMixin.convex_hull, ConnectedMultiVertexMixin.bbox, ConnectedMultiVertexMixin.length, ConnectedMultiVertexMixin.segments, ConnectedMultiVertexMixin.segment_tuples, ConnectedMultiVertexMixin.intersects, ConnectedMultiVertexMixin.intersections, ConnectedMultiVertexMixin._nearest_to_point, ConnectedMultiVertexMixin.func, ConnectedMultiVertexMixin.func, ConnectedMultiVertexMixin.shortest_distance_to, ConnectedMultiVertexMixin.nearest_on_boundary, ConnectedMultiVertexMixin.within_distance, ConnectedMultiVertexMixin.crosses_dateline, ConnectedMultiVertexMixin._seg_crosses_dateline, Line.__add__, Line.__geo_interface__, Line.geomdict, Line.extend, Line.cumulength, Line.to_points, Line.to_npoints, Line.displacement, Line.to_polygon, Polygon.__init__, Polygon.__getitem__, Polygon.__add__, Polygon.__geo_interface__, Polygon.vertices_ring, Polygon.geomdict, Polygon._subset, Polygon.isclockwise, Polygon.ispolar, Polygon.segments, Polygon.segment_tuples, Polygon.length, Polygon.perimeter, Polygon.area, Polygon.centroid, Polygon.contains, Polygon.to_line, Multipart.__init__, Multipart.d, Multipart.__hash__, Multipart.__contains__, Multipart.__len__, Multipoint.__init__, Multipoint.__getitem__, Multipoint.__setitem__, Multipoint.geomdict, Multipoint.__geo_interface__, Multipoint.merge, Multipoint.within_radius, Multipoint.within_bbox, Multipoint.within_polygon, MultiVertexMultipartMixin.bbox, MultiVertexMultipartMixin.extent, MultiVertexMultipartMixin.apply_transform, MultiVertexMultipartMixin.within_bbox, MultiVertexMultipartMixin.touching_bbox, MultiVertexMultipartMixin.touching, MultiVertexMultipartMixin.within, Multiline.__init__, Multiline.__getitem__, Multiline.geomdict, Multiline.__geo_interface__, Multiline.merge, Multiline.vertices, Multiline.coords, Multipolygon.__init__, Multipolygon.__getitem__, Multipolygon.geomdict, Multipolygon.__geo_interface__, Multipolygon.merge, Multipolygon.vertices_ring, Multipolygon.vertices, Multipolygon.coords, sign, merge_properties, affine_matrix. Not modelled: Point.__repr__, Point.__neq__, Point.x, Point.y, Point.z, MultiVertexBase.__eq__, MultiVertexBase.__neq__, Line.__init__, Multipart.__eq__, Multipart.__neq__.
* `vector/intersection.pyx` – modelled: isbetween_inc, isbetween_incl, isbetween_incr, bboxes_overlap, all_intersections, Event, .__init__, .__richcmp__, EventQueuePlaceholder.__init__, EventQueuePlaceholder.__len__, EventQueuePlaceholder.insert, EventQueuePlaceholder.takefirst, SweepLinePlaceholder.__init__, SweepLinePlaceholder.__iter__, SweepLinePlaceholder._get_slope_height, SweepLinePlaceholder.insert, SweepLinePlaceholder.leftof, SweepLinePlaceholder.rightof, SweepLinePlaceholder.remove, intersects, intersects_sph, _intersects, overlaps, iscollinear, _intersects_sph, intersection_meridian, .Vector3, intersection_sph, intersection, count_crossings, intersects_cn. Not modelled: iscollinear_sph.
* `vector/linkedlist.h` – modelled: none. Not modelled: ll_new, ll_last, ll_append, ll_destroy_head, ll_destroy.
* `vector/pool.h` – modelled: pool_new, pool_resize, pool_add, pool_pop, pool_get, pool_destroy. Not modelled: none.
* `vector/quadtree.h` – modelled: qt_new_position, qt_new_leaf, qt_insert, qt_split, qt_search_within, qt_free_bbox, qt_free_node, get_quadrant, isduplicate, iswithin, overlaps. Not modelled: qt_new_nonleaf, qt_new_bbox, qt_free_position.
* `vector/quadtree.pyx` – modelled: QuadTree.__cinit__, QuadTree.__dealloc__, QuadTree.bbox, QuadTree.search_within. Not modelled: QuadTree.__len__.
* `vector/read.py` – modelled: from_shape, _from_shape, read_geojson, .convert, .convert_geometry, .convert_feature, get_filenames, ogr_read_shapefile, ogr_parse_srs, read_gpx_tracks, _waypt2pt, _seg2line, _track2lines. Not modelled: _geojson_properties2karta, read_gpx_waypts.
* `vector/rtree.h` – modelled: minf, maxf, rt_new_node, rt_new_bbox, rt_free, add_node, rt_search_within, rt_search_overlapping, rt_insert, rt_choose_leaf, rt_adjust_tree, rt_split_leaf, rt_split_nonleaf, linear_pick_seeds, volume_expanded, is_within, bbox_intersection_area, is_overlapping. Not modelled: print_bbox, rt_free_single, rt_tighten_bbox, rt_split, union_bbox.
* `vector/rtree.pyx` – modelled: RTree.__init__, RTree.__dealloc__, RTree.bbox, RTree.search_within, RTree.search_overlapping. Not modelled: none.
* `vector/table.py` – modelled: Table.__init__, Table._validatetypes, Table.__repr__, Table.__eq__, Table.__neq__, Table.__getitem__, Table.__setitem__, Table.__delitem__, Table.__len__, Table.__contains__, Table.data, Table.fields, Table.types, Table.get, Table.getfield, Table.setfield, Table.extend, Table.updated, Table.asjson, Indexer.__init__, Indexer.__repr__, Indexer.__getitem__, NumpyAwareJSONEncoder.default, tuplemut, tupleinsert, merge. Not modelled: none.
* `vector/utilities.py` – modelled: _flatten, _as_nested_lists, _reproject. Not modelled: none.
* `vector/vectorgeo.pyx` – modelled: cross2, cross3, proj2, dist2, dist_sph, fsign, bndlat_sph, bbox, sph2cart, cart2sph, eulerpole, azimuth, azimuth_sph, length, pt_nearest_planar, _along_distance, _along_distance_gradient, pt_nearest_proj. Not modelled: dot2, dot3, eulerpole_cart, ConvergenceError.__init__, ConvergenceError.__str__.

## 7. Axioms of each property theorem (`#print axioms`)

* **none**: Profile.C130_point_partial, Profile.C130_refused, Profile.C130_violated_scalars, Profile.C130_violated_own_system, CrsText.C163_proj4_own, CrsText.C163_wkt_own, CrsText.C163_proj4_of_wkt, CrsText.C163_neither, CopySys.C166_clip, Band.Props.C186_no_bands
* **propext**: Band.Props.C04_violated_silent_corruption, Band.Props.C04_violated_negative_offset, Band.Props.C05_violated_inverted_slice, Band.Props.C05_violated_integer_out_of_range, Tab.C29_merge_of_nothing, Tab.C30_violated_empty_table, Tab.C31_violated_two_fields, Vec.C32_bbox_empty, Cache.C47_violated_extend, Tab.C55_properties_partitioned, Tab.C55_each_property_in_exactly_one, Tab.C57_without_data, Tab.C57_violated_parts_without_common_keys, Tab.C57_violated_string_property, Tab.C57_violated_table_argument, Tab.C58_violated_assigned_point, Grid.C71_dtype_round_trip_partial, Grid.C71_violated, Exch.C105_violated_crs_and_data, Exch.C106_violated_converted_holes, Exch.C106_violated_no_urn, Exch.C107_single_partial, Exch.C107_no_fields_partial, Gpx.C109_violated_lines, Gpx.C109_violated_routes, Gpx.C109_routes_partial, Grid.C113_mismatch_refused, Obj.C119_slice_refused, Obj.C120_multipoint_partial, Obj.C120_line_partial, Obj.C120_violated_line, Share.C122_shared_shifted, Share.C122_shared_vertex, Share.C123_violated_column, Share.C123_violated_added, ShpFile.C125_null_skipped, Tab.C128_no_table, Tab.C128_violated_emptied, Tab.C129_violated_always, Tab.C129_violated_empty, Tab.C129_no_values_partial, Verts.C157_point_partial, Verts.C157_refused, Verts.C157_violated_line, Verts.C157_violated_holes, Verts.C158_points_partial, Verts.C158_violated_heights, Rings.C159_part_rings, Systems.C160_violated_contains, Nest.C162_bare, BandShare.C165_violated_shared, CopySys.C166_point_partial, CopySys.C166_violated_cartesian
* **propext, Classical.choice, Quot.sound**: Band.Props.C01_compressed_band_is_last_write_wins, Band.Props.C02_chunk_size_unobservable, Band.Props.C03_simple_and_compressed_agree, Band.Props.C04_overflowing_write_frame_partial, Band.Props.C05_sliced_read_partial, Band.Props.C06_sliced_write, Band.Props.C06_bad_shape_changes_nothing, Band.Props.C06_inverted_refused, Band.Props.C07_mask_write, Band.Props.C07_mask_read, Band.Props.C07_mask_round_trip, Band.Props.C07_three_d_mask_read_partial, Band.Props.C08_iteration_yields_rows, Grid.C09_center_round_trip, Grid.C09_position_round_trip, Grid.C09_coordinate_generator_agrees, Grid.C09_quarter_turn_undefined, Grid.C10_point_in_cell, Grid.C10_returned_cell_contains, Grid.C10_outside_raises, Grid.C10_vector_agrees, Grid.C10_border_depends_on_parity, Grid.C11_tiling, Grid.C11_default_size, Grid.C11_violated_default_on_small_grids, Grid.C12_clip, Grid.C13_violated_skew, Grid.C13_resize_partial, Grid.C13_violated_negative_row_spacing, Grid.C14_merge_partial, Grid.C14_default_weights, Grid.C14_weights_scale, Grid.C14_order, Grid.C14_single, Grid.C14_violated_band_masks, Grid.C14_violated_negative_spacing, Grid.C14_violated_skew, Grid.C15_gridpoints_partial, Grid.C15_conservation, Grid.C15_violated_negative_spacing, Grid.C15_before_origin, Grid.C15_violated_skew, Grid.C16_bilinear_partial, Grid.C16_bilinear_unsigned_partial, Grid.C16_bilinear_signed_partial, Grid.C16_centre_value, Grid.C16_between, Grid.C16_affine_surface, Grid.C16_violated_first_row, Grid.C16_violated_signed_outside, Grid.C17_scalar, Grid.C17_vector_partial, Grid.C17_violated_multiband, Grid.C17_violated_all_outside, Grid.C18_set_nodata, Grid.C19_center_extent_partial, Grid.C19_edge_extent_partial, Grid.C19_violated_opposite_skew, Grid.C20_start_vertex, Grid.C20_reversal_partial, Grid.C20_outside_rows, Grid.C20_outside_columns_partial, Grid.C20_violated_oblong_cells, Grid.C20_violated_slanted_rows, Grid.C21_reads_esri_files_partial, Grid.C21_violated_unreadable, Grid.C22_geotiff_round_trip_partial, Grid.C22_violated_skew, Grid.C22_violated_single_row, Grid.C23_file_band_agrees_partial, Grid.C23_file_band_pixels, Grid.C23_violated_single_row, Vec.QT.C24_search_exact, Vec.QT.C24_search_total, Vec.QT.C25_build_terminates, Vec.QT.C25_capacity_one_diverges, RTree.C26_sound_partial, RTree.C26_small_partial, RTree.C26_violated_lost_geometry, RTree.C26_violated_stale_box, RTree.C26_violated_flat, RTree.C26_two_levels_partial, RTree.C26_violated_stale_parent, RTree.C27_within_sound_partial, RTree.C27_small_partial, RTree.C27_violated_limit, RTree.C27_two_levels_partial, Tab.C28_setfield_getfield, Tab.C28_setfield_history, Tab.C28_empty_table_keeps_only_new_column, Tab.C29_extend_appends_rows, Tab.C29_merge_is_inner_join, Tab.C30_updated_with_table_partial, Tab.C30_updated_with_dict_partial, Vec.C32_bbox_tight, Vec.C32_multipart_bbox_tight, Vec.C33_bboxes_overlap_exact, Vec.C33_method_agrees, Vec.C33_bbox_wf, Vec.C34_intersection_exact, Vec.C34_intersection_sound, Vec.C35_all_intersections_exact, Vec.C35_every_crossing_listed, Vec.C35_symmetric, Vec.Sweep.C36_sound_partial, Vec.Sweep.C36_vertical_partial, Vec.Sweep.C36_first_contact_partial, Vec.Sweep.C36_exact_partial, Vec.Sweep.C36_method_partial, Vec.Sweep.C36_violated_self_crossing, Vec.Sweep.C36_violated_touch, Vec.Sweep.C36_violated_vertical_overlap, Vec.Sweep.C36_violated_retrace, Vec.C37_southeast_exact_partial, Vec.C37_northwest_exact_partial, Vec.C37_violated_southwest, Vec.C37_violated_same_height, Vec.C37_violated_opposite, Vec.C37_violated_horizontal, Vec.C37_violated_descending, Vec.C37_ascending_exact_partial, Vec.C37_vertical_exact_partial, Vec.C37_true_on_common_line, Vec.C38_invariance, Vec.C38_separated_not_contained, Vec.C38_outside_bbox, Vec.C38_left_of_all_edges, Vec.C38_convex, Vec.C38_convex_clockwise, Vec.C39_holes_excluded, Vec.C39_area_minus_holes, Vec.C40_area_invariance, Vec.C40_area_affine_with_holes, Vec.C40_triangle, Vec.C40_empty, Vec.C41_isclockwise_iff, Vec.C41_invariance, Vec.C42_affine_equivariant, Vec.C42_invariance, Vec.C42_defined, Vec.C42_triangle, Vec.C42_cut, Tr.C43_violated_spatial_on_planar, Tr.C43_rotate_acts, Tr.C43_rotation_rigid, Vec.C44_nearest_on_segment_partial, Vec.C44_violated_short_horizontal, Vec.C44_zero_length, Vec.C45_line_distance_partial, Vec.C45_violated_closing_segment, Vec.C45_violated_within_distance, Vec.C45_within_distance_partial, Vec.Hull.C46_encloses_partial, Vec.Hull.C46_all_but_first_ray_partial, Vec.Hull.C46_vertices_partial, Vec.Hull.C46_violated_lost_vertex, Vec.Hull.C46_violated_collinear, Vec.Hull.C46_violated_raises, Cache.C47_violated_assignment, Geod.C48_reduce, Geod.C48_unroll, Geod.C49_canonical, Geod.C50_antisymmetric, Geod.C50_meaning, Geod.C50_method, Tile.C51_tile, Tile.C51_range, Tile.C51_children, Geod.Brent.C52_answer, Geod.Brent.C52_errors, Geod.Brent.C52_root_at_end, Surface.C53_plane, Surface.C53_linear, Surface.C53_offset, Surface.C53_divergence_plane, Surface.C53_divergence_offset, Surface.C53_divergence_linear, Surface.C53_slope_interior, Surface.C53_slope_plane, Shape.C54_terminates, Shape.C54_distinct, Shape.C54_length_partial, Shape.C54_id_partial, Shape.C54_violated_id, Shape.C54_violated_long, Tab.C56_parts_inner_join, Tab.C57_one_row_per_part_partial, Tab.C58_assigned_point_partial, Tab.C59_slice_keeps_attributes, Vec.QT.C60_within_bbox_agrees, Vec.QT.C60_within_radius_agrees, Vec.C61_cut, Vec.C62_just_right_partial, Vec.C62_convex_partial, Vec.C62_violated_upper_edge, Vec.C62_rectangle_partial, Tr.C63_violated_shift_drops_holes, Grid.C64_vertex_coords_partial, Grid.C64_violated_last_row, Grid.C65_clip_beyond_far_edges_partial, Grid.C65_violated_box_outside_grid, Grid.C66_away_partial, Grid.C66_corner_polygons_partial, Grid.C66_violated_slanting_side, Grid.C66_keeps_or_erases, Grid.C66_raises, Grid.C66_rectangles_partial, Grid.C66_violated_negative_spacing, Grid.C66_violated_oblong_cells, Grid.C66_same_box_partial, Grid.C67_accepts_iff_partial, Grid.C67_violated_skew_accepted, Grid.C68_geotiff_places_pixels, Grid.C69_read_places_pixels_partial, Grid.C69_band_selection, Grid.C69_violated_skew, Grid.C70_violated_transforms_not_compared, Grid.C70_violated_nan_order, Grid.C70_sizes_agree_partial, RTree.C72_bbox_small_partial, RTree.C72_violated_after_division, RTree.C72_two_levels_partial, RTree.C73_total, RTree.C73_capacity, Geod.C74_exact_partial, Geod.C74_one_way_partial, Geod.C74_violated_back_and_forth, Geod.C75_between_partial, Geod.C75_violated_opposite, Geod.C76_no_crossing_partial, Geod.C76_last_step_partial, Geod.C76_violated_after_crossing, Geod.C76_violated_180, Geod.C77_equatorial_partial, Geod.C77_violated_long_way, Surface.C78_gradient, Surface.C78_divergence_partial, Surface.C78_violated_divergence, Surface.C79_size_partial, Surface.C79_violated_one_row, Surface.C79_slope_nonneg_partial, Surface.C79_violated_negative_slope, Surface.C80_east_west_partial, Surface.C80_mirrored_partial, Surface.C80_violated_north, Surface.C81_unit_partial, Surface.C81_violated_lone_component, Shape.C82_columns_partial, Shape.C82_rows_partial, Shape.C82_violated_late_value, Cache.C83_plain_partial, Cache.C83_fresh_partial, Cache.C83_violated_indexed, Geod.C84_forward_inverse, Geod.C84_inverse_forward, Geod.C84_inverse_symmetric, Geod.C84_compass, Geod.C85_walk_there, Geod.C85_azimuth_defined, Geod.C85_after_walk, Geod.C85_violated_meridian, Geod.C85_geographic_partial, Geod.C86_metric_partial, Geod.C86_planar, Geod.C86_violated_mixed, Geod.Sphere.C87_great_circle, Geod.Sphere.C87_compiled, Geod.Sphere.C87_metric, Geod.Sphere.C88_direction_partial, Geod.Sphere.C88_round_trip_partial, Geod.Sphere.C88_violated_south, Geod.Sphere.C88_violated_pole, Geod.Sphere.C88_violated_west, Geod.Sphere.C89_violated_far_side, Geod.Sphere.C89_on_both_partial, Geod.Sphere.C89_between_partial, Geod.Sphere.C89_meridian_partial, Geod.Sphere.C89_violated_south, Geod.Sphere.C90_violated_far_side, Geod.Sphere.C90_violated_order, Geod.Sphere.C90_violated_southward, Geod.Sphere.C90_all_cross_partial, Geod.Sphere.C90_violated_one_miss, Along.C91_cumulative, Along.C91_increasing, Along.C91_displacement, Along.C92_equal_spacing_partial, Along.C92_violated_short, Along.C93_spacing_partial, Along.C93_violated_short_segments, Geod.Geodesic.C94_great_circle_partial, Geod.Geodesic.C94_return_partial, Geod.Geodesic.C94_distance_partial, Geod.Geodesic.C94_equator, Geod.Geodesic.C95_reach, Geod.Geodesic.C95_arrival, Geod.Geodesic.C96_area_partial, Geod.Geodesic.C96_violated_equator, Geod.Geodesic.C96_violated_dateline, Geod.Geodesic.C97_sphere_partial, Geod.Geodesic.C97_violated_cancelling, Vec.C98_ring, Vec.C98_contains_constant, Vec.C98_reaches_outside, Vec.C98_crossing, Vec.C98_enter, Multi.C99_sound_partial, Multi.C99_exact_partial, Multi.C99_violated_hole, Multi.C99_violated_flat, Multi.C100_polygon_partial, Multi.C100_line_partial, Multi.C100_sound_partial, Multi.C100_violated_flat, Join.C101_lines, Join.C101_points, Join.C101_polygons_partial, Join.C101_violated_ranks, Fit.C102_best, Fit.C102_unique, Fit.C102_recovers, Fit.C102_apply, NearProj.C103_near, NearProj.C103_distance, NearProj.C103_ends, NearProj.C103_defaults, NearProj.C103_convergence_error, Geod.LatBound.C104_segment_partial, Geod.LatBound.C104_box_partial, Geod.LatBound.C104_violated_crossing, Exch.C105_polygons_partial, Exch.C106_polygons_partial, Exch.C106_multiparts_partial, Exch.C106_violated_same_length, Exch.C107_violated_multiparts, Gpx.C108_tracks_and_routes_partial, Gpx.C108_violated_extensions, Gpx.C108_lines_partial, Gpx.C109_tracks_partial, Gpx.C109_violated_height, Gpx.C109_waypoints, Grid.C110_nearest_partial, Grid.C110_spacing_refused, Grid.C110_method_refused, Grid.C110_violated_single_column, Grid.C110_violated_bands, Grid.C110_violated_skew, Grid.C111_own_spacing_partial, Grid.C111_violated_bands, Grid.C111_violated_skew, Grid.C112_linear_partial, Grid.C112_violated_skew, Grid.C113_cellwise, Grid.C113_bands_refused, Grid.C113_sub_add, Grid.C113_nodata_summed, Grid.C114_centers_partial, Grid.C114_bbox_partial, Grid.C114_violated_right, Grid.C114_violated_negative_rows, Grid.C114_violated_bands, Grid.C115_max_min, Grid.C115_minmax, Grid.C115_violated_bands, Grid.C116_align_origin_partial, Grid.C116_violated_bands, Grid.C116_violated_large_step, Obj.C117_trans_partial, Obj.C119_slice_line, Obj.C119_slice_polygon_partial, Obj.C119_violated_holes, Obj.C120_to_line, Obj.C120_violated_there_and_back, Share.C122_properties, Share.C122_assigned_points, Share.C122_fields, Share.C123_moved_partial, Share.C123_kept_partial, Ellps.C124_named_are_ellipsoids, Ellps.C124_ellps, Ellps.C124_datum_partial, Ellps.C124_violated_carthage, Ellps.C124_axes_partial, Ellps.C124_flattening_partial, Ellps.C124_refused, Ellps.C124_violated_sphere, Ellps.C124_violated_alpha, Ellps.C124_wkt_partial, Ellps.C124_violated_datum, ShpFile.C125_order_partial, ShpFile.C125_violated_mixed, ShpFile.C126_attributes_partial, ShpFile.C126_violated_none, ShpFile.C127_written, ShpFile.C127_violated_latlong, ShpFile.C127_violated_cartesian, ShpFile.C127_read_partial, ShpFile.C127_violated_sphere, ShpFile.C127_violated_datum, Tab.C128_history_partial, Profile.C130_nearest_point, Profile.C131_profile_partial, Profile.C131_violated_negative_spacing, Mem.C132_balanced, Mem.C132_separate, Mem.C133_searches_partial, Mem.C133_violated_leak, Mem.C134_violated_leak, Mem.C134_violated_failed_build, Mem.C134_violated_double_free, Mem.C134_small_partial, Mem.C135_search_partial, Mem.C135_violated_leak, Geod.Polar.C136_exact_partial, Geod.Polar.C136_right_partial, Geod.Polar.C136_violated_outside, Geod.Polar.C136_violated_inside, Geod.Polar.C136_holes, Geod.Polar.C136_away, Geod.Cross.C137_point_partial, Geod.Cross.C137_meridian_partial, Geod.Cross.C137_violated_same_circle, Geod.Cross.C137_violated_dateline, Geod.Cross.C137_pair_partial, Geod.Cross.C138_one_way_partial, Geod.Cross.C138_found_partial, Geod.Cross.C138_violated_turn, Geod.Cross.C138_violated_missed, Geod.HullSph.C139_encloses_partial, Geod.HullSph.C139_all_but_first_arc_partial, Geod.HullSph.C139_violated_repeated_vertex, Geod.HullSph.C139_violated_dateline, Length.C140_length, Length.C140_join, Length.C140_metric, Length.C140_planar, Length.C140_scaled, Length.C140_agrees_partial, Length.C140_violated_height, Length.C140_perimeter, Length.C140_perimeter_invariant, Float.C141_positions, Float.C141_cell, Float.C141_centre, Float.C142_resize_partial, Float.C142_clip_partial, Float.C142_clip_window_partial, Float.C142_violated_resize, Float.C142_violated_clip, Float.C143_merge_partial, Float.C143_violated_misplaced, Float.C143_violated_refused, Float.C144_gridpoints_partial, Float.C144_resample_partial, Float.C144_violated_resample, Float.C144_violated_gridpoints, Float.QT.C145_index_partial, Float.QT.C145_violated_lost, Float.QT.C145_violated_endless, Float.QT.C145_radius_partial, Float.QT.C145_violated_radius, Float.RT.C146_overlap_partial, Float.RT.C146_units_partial, Float.RT.C146_violated_missed, Float.RT.C146_violated_within, Float.RT.C146_violated_bbox, Float.C147_clear_partial, Float.C147_units_partial, Float.C147_violated_gap, Float.C147_violated_both, Float.C148_close_partial, Float.C148_units_partial, Float.C148_violated_180, Float.C148_violated_opposite, Float.C148_violated_360, Float.C149_close_partial, Float.C149_violated_outside, Float.C149_violated_180, Float.C149_units_partial, Geod.Geodesic.C150_start, Geod.Geodesic.C150_direction, Geod.Geodesic.C150_shift, Geod.Geodesic.C150_mirror, Geod.Geodesic.C150_violated_equator, Geod.Geodesic.C150_flat, Grid.C151_cells_partial, Grid.C151_values_partial, Grid.C151_all, Grid.C151_violated_negative, Grid.C151_violated_beyond, Grid.C151_violated_single_row, Grid.C151_violated_empty, Tab.C152_columns_partial, Tab.C152_refused, Tab.C152_lossless, Tab.C152_violated_nesting, Obj.C153_vertices, Float.C154_inside_partial, Float.C154_near, Float.C154_order, Float.C154_corner_exact, Float.C154_violated_corner, Float.C154_violated_beyond, Float.C155_area_units_partial, Float.C155_area_error_partial, Float.C155_clockwise_clear_partial, Float.C155_clockwise_units_partial, Float.C155_centroid_units_partial, Float.C155_violated_centroid, Float.C155_violated_clockwise, Float.C155_violated_area, Float.C156_clear_partial, Float.C156_units_partial, Float.C156_test_units_partial, Float.C156_count_units_partial, Float.C156_violated_missed, Float.C156_violated_order, Verts.C157_columns, Rings.C159_made_partial, Rings.C159_crossings_partial, Rings.C159_violated_to_polygon, Rings.C159_violated_parts, Rings.C159_violated_crossings, Rings.C159_violated_touching, Rings.C159_violated_within, Systems.C160_violated_area, CrossSys.C161_intersects_partial, CrossSys.C161_apart, CrossSys.C161_radius_plain, CrossSys.C161_radius_partial, CrossSys.C161_box, CrossSys.C161_polygon_plain, CrossSys.C161_polygon_partial, CrossSys.C161_violated_radius, CrossSys.C161_violated_missed, CrossSys.C161_violated_spurious, CrossSys.C161_violated_order, CrossSys.C161_violated_intersections, CrossSys.C161_violated_incomparable, CrossSys.C161_violated_polygon, Nest.C162_taken_partial, Nest.C162_shown_partial, Nest.C162_again_partial, Nest.C162_violated_empty, CrsText.C163_wkt_partial, CrsText.C163_raster_partial, CrsText.C163_geographical, CrsText.C163_violated_latlong, CrsText.C163_violated_raster, Grid.C164_single_partial, Grid.C164_pointwise_partial, Grid.C164_violated_bands, BandShare.C165_values_partial, BandShare.C165_new, BandShare.C165_copy_sharing, ExtIn.C167_centers_partial, ExtIn.C167_edges_partial, ExtIn.C167_tight_partial, ExtIn.C167_clip_partial, ExtIn.C167_violated_bend, ExtIn.C167_violated_clip, Float.C168_error, Float.C168_between, Float.C168_outside, Float.C168_integers_partial, Float.C168_off_by_one, Float.C168_exact, Float.C168_exact_integers, Float.C168_centre, Float.C168_violated_constant, Float.C168_violated_point, Float.C168_violated_below, Float.C169_distance, Float.C169_zero, Float.C169_symmetric, Float.C169_length, Float.C169_cumulength, Float.C169_extend, Float.C169_nearest, Float.C169_exact, Float.C169_violated_reverse, Float.C169_violated_detour, Typed.C170_write, Typed.C170_nodata_partial, Typed.C170_violated_nodata, Typed.C170_sum, Typed.C170_violated_overflow, Typed.C170_sub_add, Typed.C170_violated_missing, Typed.C170_resize_partial, Typed.C170_violated_resize, AlongEnds.C171_to_points, AlongEnds.C171_violated_spacing, AlongEnds.C171_to_npoints, AlongEnds.C171_violated_npoints, FloatAffine.C172_error, FloatAffine.C172_identity, FloatAffine.C172_shift, FloatAffine.C172_bbox, FloatAffine.C172_turn, FloatAffine.C172_back_partial, FloatAffine.C172_violated_back, FloatAffine.C172_violated_steps, FloatSurface.C173_error, FloatSurface.C173_sign_x, FloatSurface.C173_sign_y_partial, FloatSurface.C173_units_partial, FloatSurface.C173_offset_partial, FloatSurface.C173_missing, FloatSurface.C173_violated_sign_y, FloatSurface.C173_violated_offset, FloatNearest.C174_answers, FloatNearest.C174_wide, FloatNearest.C174_narrow, FloatNearest.C174_axis, FloatNearest.C174_line, FloatNearest.C174_shortest, FloatNearest.C174_vertex, FloatNearest.C174_violated_end, FloatNearest.C174_violated_short, Geod.AreaSeries.C175_side_partial, Geod.AreaSeries.C175_geodesic, Geod.AreaSeries.C175_series_partial, Geod.AreaSeries.C175_quotient, Geod.AreaSeries.C175_violated_coefficient, Geod.AreaSeries.C175_area_partial, Geod.ForwardSeries.C176_forward, Geod.ForwardSeries.C176_geodesic, Geod.ForwardSeries.C176_earth, Geod.InverseSeries.C177_inverse, Geod.InverseSeries.C177_meridian, Geod.InverseSeries.C177_earth, Geod.InverseSeries.C177_opposite, Geod.InverseSeries.C177_first, Crossings.C178_side, Crossings.C178_ring_partial, Crossings.C178_line_partial, Crossings.C178_ring_closing_partial, Crossings.C178_direction, Crossings.C178_violated_line, Crossings.C178_violated_ring, Crossings.C178_inside_partial, Crossings.C178_contains_partial, Geod.SphAz.C179_reaches, Geod.SphAz.C179_only, Geod.SphAz.C179_compiled, Geod.SphAz.C179_sequences, Geod.SphAz.C179_violated_mixed, Float.HullF.C180_encloses_partial, Float.HullF.C180_vertices, Float.HullF.C180_violated_lost_vertex, Float.SphereF.C181_error, Float.SphereF.C181_near, Float.SphereF.C181_defined_partial, Float.SphereF.C181_violated_raises, FlatDist.C182_flat, FlatDist.C182_other_rank, FlatDist.C182_other_rank_ground, FlatDist.C182_agree, FlatDist.C182_violated_other_system, Float.TileRow.C183_near, Float.TileRow.C183_inside_partial, Float.TileRow.C183_order, Float.TileRow.C183_south_pole, Float.TileRow.C183_violated_border, Float.TileCorner.C184_accuracy, Float.TileCorner.C184_order, Float.TileCorner.C184_lookup_partial, Float.TileCorner.C184_equator, Float.TileCorner.C184_violated_lookup, Vec.ShapeName.C185_violated_plain_name, Band.Props.C186_one_band_partial, Band.Props.C186_violated_several_bands, Band.Props.C186_iteration_agrees, Band.Props.C186_array_of_all
* **propext, Quot.sound**: Band.Props.C05_integer_row_key_modulo, Band.Props.C06_stepped_refused, Band.Props.C06_integer_row_key_modulo, Band.Props.C07_violated_three_d_round_trip, Tab.C28_wrong_length_refused, Tab.C30_unequal_length_refused, Tab.C31_subset_partial, Tab.C31_subset_single_field_partial, Tr.C43_acts_per_vertex, Tr.C43_planar_matrix_keeps_z, Tr.C43_spatial_acts_per_vertex, Tr.C43_refused, Tr.C43_compose, Tr.C43_shift, Tr.C43_shift_refused, Tr.C43_point_agrees, Tr.C43_point_shift, Tr.C43_multipart, Cache.C47_recomputed_partial, Cache.C47_queries, Tab.C57_wrong_length_refused, Tab.C58_part_attributes_partial, Tr.C63_no_holes_partial, Join.C101_violated_holes, Fit.C102_refuses, Exch.C105_vertices_partial, Exch.C105_properties_partial, Exch.C105_violated_properties, Exch.C105_violated_multipolygon, Exch.C105_violated_empty_part, Exch.C106_points_and_lines_partial, Exch.C106_violated_holes, Exch.C106_violated_multipolygon, Exch.C106_violated_empty_part, Gpx.C108_violated_waypoints, Obj.C117_refl, Obj.C117_symm, Obj.C117_exact_partial, Obj.C117_violated_holes, Obj.C117_violated_ranks, Obj.C117_violated_transitive, Obj.C118_points_partial, Obj.C118_others_partial, Obj.C118_violated_names, Obj.C118_violated_zero, Obj.C119_item, Obj.C119_item_refused, Obj.C119_iter, Obj.C121_nearest_vertex, Obj.C121_nearest_refused, Obj.C121_any_within, Share.C122_made, ShpFile.C125_violated_height, ShpFile.C125_violated_multipolygon, ShpFile.C125_empty_refused, ShpFile.C126_violated_dates, Tab.C128_refused, Tab.C128_violated_short_row, Profile.C130_multipoint_partial, Profile.C130_arrays_partial, Tab.C152_violated_unsigned, Obj.C153_collection_partial, Obj.C153_own_parts, Obj.C153_violated_holes, Verts.C157_own, Verts.C157_coords, Verts.C157_vertices_partial, Verts.C157_agree, Verts.C157_multiline_partial, Verts.C157_multipolygon_partial, Verts.C157_violated_heights, Verts.C157_violated_hole_place, Verts.C158_lines_partial, Verts.C158_lines_same, Verts.C158_polygons_partial, Verts.C158_violated_holes, Verts.C158_violated_points, Rings.C159_part_arrays, Systems.C160_contains_partial, Systems.C160_read_partial, Grid.C164_untouched, Grid.C164_violated_halfway, BandShare.C165_frame, BandShare.C165_violated_file, CopySys.C166_coords_partial, CopySys.C166_positions_partial, Vec.ShapeName.C185_read_what_was_saved, Vec.ShapeName.C185_extension_optional, Vec.ShapeName.C185_other_files_untouched, Vec.ShapeName.C185_write_with_extension_partial
