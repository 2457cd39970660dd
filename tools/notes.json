{
 "C04": {
  "note": "False in general: C04_violated_* are kernel-checked counterexamples. The partial theorem covers every block whose first row and column are non-negative and whose first column is at most the band width."
 },
 "C05": {
  "note": "Holds for every key Python accepts except slices running against their step, which the code refuses with ValueError instead of returning an empty selection; out-of-range integers wrap modulo the height instead of raising."
 },
 "C07": {
  "note": "2-D masks are fully covered. 3-D masks: writes covered; the read-then-write round trip is false for two or more bands."
 },
 "C100": {
  "note": "Soundness for any number of parts and exactness for parts whose boxes share an area and whose index is intact (at most fifty parts, or two levels built without mishap), under the conditions of C99. False for horizontal and vertical lines (C100_violated_flat); beyond fifty parts the index itself can lose parts (C26). The theorems hold for open and closed parts; the parts of a Multipolygon are open, without their closing side (C159_violated_touching)."
 },
 "C101": {
  "note": "Proved for points and lines of any ranks and for polygons of equal rank. Polygons of different ranks raise NameError (C101_violated_ranks) and multipolygons made from polygons with holes cannot be merged at all (C101_violated_holes)."
 },
 "C102": {
  "note": "numpy's least-squares solver is a parameter assumed to return a minimiser of the sum of squares; the model builds its system and reshapes its answer."
 },
 "C103": {
  "note": "Forward and inverse geodesic functions are parameters, assumed to agree at the ends, and the distance is assumed to fall and then rise along the segment, which valley_sphere proves for the sphere; real arithmetic. The tolerance is exceeded by the finite-difference step, one ten-millionth of the length."
 },
 "C104": {
  "note": "Proved for segments between different places that are not opposite each other, both in the same hemisphere, on one meridian or at most 90 degrees of longitude apart. False for other segments across the equator: the peak is ignored (C104_violated_crossing)."
 },
 "C105": {
  "note": "Vertices come back for points with two or three coordinates, lines, multipoints, multilines and polygons with holes (if the coordstring package drops the closing vertex of a ring), properties for points, lines, polygons and multipoints. The coordinate system becomes Cartesian and data fields are lost in every case, multilines and multipolygons lose their properties and the rings of multipolygons grow by a vertex (C105_violated theorems). A multiline with an empty part cannot be exported (C105_violated_empty_part)."
 },
 "C106": {
  "note": "Proved for points, lines, polygons without holes, multipoints and multilines none of whose properties has the length of the collection. False otherwise: holes come back as lists on which contains and as_geojson raise (C106_violated_holes), holes are dropped if coordinates are converted, rings of multipolygons grow, properties of that length become data, and export without conversion and URN raises NameError. The serializer is a parameter that keeps or reverses rings. A multiline with an empty part cannot be exported (C106_violated_empty_part)."
 },
 "C107": {
  "note": "Proved for points, lines, polygons and collections without fields. Collections with fields gain them as properties that hide the value of each part (C107_violated_multiparts)."
 },
 "C108": {
  "note": "Proved for documents written without waypoints whose keys are not names of GPX containers, with writing and parsing of XML and numbers as parameters. A document with a waypoint cannot be read (C108_violated_waypoints) and tracks, segments and routes gain a property (C108_violated_extensions)."
 },
 "C109": {
  "note": "Proved for waypoints, for tracks of multipoints and for routes without attributes. Lines cannot be added as tracks, routes with attributes raise TypeError and heights are lost without a known attribute (C109_violated theorems)."
 },
 "C11": {
  "note": "Proved for every window size larger than the overlap; the default window size on grids with fewer than four rows or columns never terminates (proved for every such grid)."
 },
 "C110": {
  "note": "Proved for grids of one band without skew, unless the result would have one column and several rows. That case returns one row (C110_violated_single_column), more bands are scrambled (C110_violated_bands) and skewed grids are extended beyond their centres (C110_violated_skew)."
 },
 "C111": {
  "note": "Proved for grids of one band without skew. With several bands the values are scrambled (C111_violated_bands), and skewed grids grow (C111_violated_skew)."
 },
 "C112": {
  "note": "Proved for grids of any number of bands without skew, of at least two rows and columns, when the result has at least two rows and columns. Skewed grids are extended by cells of nodata (C112_violated_skew); results of a single column are turned into a row (C110_violated_single_column)."
 },
 "C113": {
  "note": "Cells are combined without regard to nodata: C113_nodata_summed shows that a missing cell becomes data."
 },
 "C114": {
  "note": "Proved for one band, no skew, cells running right and up, where some data lie to the right of the number used as the y coordinate of the first row, as the running maximum of x starts there. Otherwise the right edge is wrong (C114_violated_right), for rows running down the lower edge is (C114_violated_negative_rows), and more bands raise IndexError (C114_violated_bands)."
 },
 "C115": {
  "note": "max and min look only at cells that hold data in all bands (C115_max_min, C115_violated_bands); minmax is as claimed."
 },
 "C116": {
  "note": "Proved for one band, when some centre of the result falls on the grid. Several bands are scrambled (C116_violated_bands); an error is raised when no centre falls on the grid (C116_violated_large_step)."
 },
 "C117": {
  "note": "Proved: reflexive, symmetric, exact without holes, transitive unless a projected system lies between two others. Holes are ignored (C117_violated_holes), multipoints of different rank raise ValueError (C117_violated_ranks), and geographical systems compare by identity (C117_violated_transitive)."
 },
 "C118": {
  "note": "Proved for systems of one name and, except for points, coordinates without -0.0. Otherwise false (C118_violated_names, C118_violated_zero)."
 },
 "C119": {
  "note": "Proved except that slices of polygons have no holes (C119_violated_holes)."
 },
 "C120": {
  "note": "Proved for multipoints, for lines and polygons through points of one system, and for to_line. Coordinates of points in several systems are mixed (C120_violated_line), and the way back has one vertex more (C120_violated_there_and_back)."
 },
 "C122": {
  "note": "Proved exactly as stated. C122_shared_shifted and C122_shared_vertex are concrete cases where assigning to a derived geometry changes the original."
 },
 "C123": {
  "note": "Multilines and multipolygons: a collection without properties keeps its columns; in general its properties become columns and replace those of the same name (C123_moved_partial, C123_violated_column, C123_violated_added). Multipoints share the table (C122)."
 },
 "C124": {
  "note": "Proved except: datum carthage raises KeyError (C124_violated_carthage), a flattening of zero raises ZeroDivisionError (C124_violated_sphere), +alpha= is taken for +a= (C124_violated_alpha), and systems made from WKT are always on the datum WGS84 (C124_violated_datum)."
 },
 "C125": {
  "note": "Proved for lists of one type in the plane, for rings that do not come back to their first vertex. False for heights (C125_violated_height), multipolygons, which are lost altogether (C125_violated_multipolygon), and lists of several types (C125_violated_mixed). An empty list raises IndexError."
 },
 "C126": {
  "note": "Proved for numbers and text of the type of the column and for missing numbers. Dates and times come back as None (C126_violated_dates), missing text as 'None' (C126_violated_none)."
 },
 "C127": {
  "note": "Proved for projected systems, for lonlat, longlat and latlon, and for the ellipsoid read. False for +proj=latlong (C127_violated_latlong), Cartesian coordinates (C127_violated_cartesian), spheres (C127_violated_sphere) and datums (C127_violated_datum)."
 },
 "C128": {
  "note": "Proved for tables that are not empty when a column is set and for rows with one value per field. A column set after the last row was deleted makes the table forget its other fields (C128_violated_emptied), and rows of any length are stored (C128_violated_short_row)."
 },
 "C129": {
  "note": "False for every table with a row and a field (C129_violated_always): the arguments of isinstance are in the wrong order. Tables without rows raise IndexError (C129_violated_empty)."
 },
 "C13": {
  "note": "Proved for positive spacing without skew; for negative row spacing every resize to the grid's own box raises (proved); on skewed grids values are moved to other places (C13_violated_skew)."
 },
 "C130": {
  "note": "Proved for points, multipoints and arrays. Two numbers raise TypeError (C130_violated_scalars); giving the grid's own system by name fails if that system has no conversions, as the Cartesian one (C130_violated_own_system). The conversion of coordinates is a parameter with stated assumptions."
 },
 "C131": {
  "note": "Proved for a positive spacing and segments longer than it (see C93 for shorter ones). With negative cell sizes the default spacing is negative and the call never returns (C131_violated_negative_spacing)."
 },
 "C132": {
  "note": "malloc is assumed to succeed. The bounding box computed by coordstring is assumed to contain the points before the first NaN."
 },
 "C133": {
  "note": "Answers and safety are proved for every sequence of searches; that they give back all memory is false: each search leaves two blocks behind (C133_violated_leak)."
 },
 "C134": {
  "note": "False: the arrays of children and all blocks of inner nodes are never freed (C134_violated_leak), nothing is freed if the construction fails (C134_violated_failed_build), and a box can be freed twice (C134_violated_double_free). Proved for indexes of one node, except for the array of children."
 },
 "C135": {
  "note": "Safety is proved for every search that returns; the box of the query is never freed (C135_violated_leak). That the nodes visited are live is not part of this model."
 },
 "C136": {
  "note": "False (C136_violated_outside, C136_violated_inside). Proved: the answer is True exactly when no side passes due north of the point clockwise (C136_exact_partial), and the condition under which that is right; for all other polygons, points in a hole are not contained, and points outside the ring or in no hole as the ring says (C136_holes, C136_away)."
 },
 "C137": {
  "note": "Proved for segments on different great circles that do not follow a meridian, do not reach the meridian 180 and span less than 180 degrees, and for a meridian against such a segment. False for two segments of the same great circle and for segments across the meridian 180. Rounding is not modelled."
 },
 "C138": {
  "note": "Proved for lines that go one way, in general position. False for lines that turn back: C138_violated_turn (for every order of the sweep line) and C138_violated_missed. In exact arithmetic the heights by which the sweep line is ordered are NaN; C138_found_partial and C138_violated_turn hold for every order and so do not depend on it."
 },
 "C139": {
  "note": "Proved for vertices within 90 degrees of longitude of a meridian, without poles, when no position is repeated but the leftmost and those on the lowest great circle from it. False for repeated vertices (every ring repeats its first vertex) and across the meridian 180; vertices on the lowest great circle may be lost as in C46. Rounding is not modelled: in floating point the azimuth from a vertex to a copy of itself may be pi instead of 0."
 },
 "C14": {
  "note": "Proved for positive spacing without skew, for data holding in all bands. Violated for negative spacing (raises), for several bands (a pixel missing in one band is lost in all) and for skewed grids, whose cells are combined with others (C14_violated_skew)."
 },
 "C140": {
  "note": "Partial: for vertices with heights length and cumulative length disagree, since length ignores the third coordinate (C140_violated_height). Real arithmetic; the metric laws are assumptions for geographical systems (C87 proves them for great-circle distances) and proved for planar ones."
 },
 "C141": {
  "note": "Grids without skew. The model rounds every operation of positions, indices and coordinates by an arbitrary rounding function with the stated properties; the concrete round-half-even function `double` is shown to have them. No overflow or underflow."
 },
 "C142": {
  "note": "Partial: proved for grids and boxes in whole multiples of a power of two (metres, halves of metres) of moderate size, and for clipping windows of any cell size when the edges of the box stay away from centres; violated for cells of 0.1: resizing to 0.1..0.4 keeps four columns instead of three (C142_violated_resize), clipping to reported centres loses a column (C142_violated_clip)."
 },
 "C143": {
  "note": "Partial: proved for grids in whole multiples of a power of two; violated for cells of 0.1: a grid from 0 is put two columns right of one from -0.3 (C143_violated_misplaced), and in the other order the aligned grids are refused (C143_violated_refused)."
 },
 "C144": {
  "note": "Partial: proved for grids, spacings and points in whole multiples of a power of two; violated for cells of 0.1: at the own spacing eleven columns become ten (C144_violated_resample), and a point at 1 raises IndexError (C144_violated_gridpoints)."
 },
 "C145": {
  "note": "Partial: proved for points whose coordinates are equal or sufficiently far apart (Spaced), and for radii with all numbers in whole units up to 2^22; violated: with 0.3 and 0.1+0.2 among 52 points a point is lost (C145_violated_lost), with a leaf capacity of four the construction never ends for neighbouring doubles (C145_violated_endless), and within_radius depends on the index (C145_violated_radius)."
 },
 "C146": {
  "note": "Partial: up to M geometries (one node). Overlap searches never report a geometry that does not overlap; exact for bounds in whole units up to 2^24. Violated: a polygon ten centimetres high at northing 4100000 is never found (C146_violated_missed), one that reaches beyond the query is reported within it (C146_violated_within), the box of the index does not contain its geometries (C146_violated_bbox)."
 },
 "C147": {
  "note": "Partial: proved for points not closer to the line of an edge beside them than the rounding errors (Clear), and for all points if coordinates are whole units up to 2^24; violated otherwise: a point of a quadrilateral in neither of its two halves (C147_violated_gap), or in both (C147_violated_both). Assumes that the compiler does not fuse multiplications and subtractions."
 },
 "C148": {
  "note": "Partial: range with both ends included and error bound for every angle; exact for angles in whole multiples of a power of two from 2^-44 to 4 degrees. Violated: the double below -180 becomes 180 and reducing it again -180 (C148_violated_180), the double below 180 becomes -180 (C148_violated_opposite), small negative angles unroll to 360 (C148_violated_360)."
 },
 "C149": {
  "note": "Partial: without crossings of the meridian 180 the limits differ from the extreme longitudes by at most 2^-43 degrees; exact for longitudes in whole multiples of a power of two, with any number of crossings (what exact arithmetic gives then is C76). Violated: the box of a line from 0 to 0.1 ends west of 0.1 (C149_violated_outside); just below 180 the eastern limit becomes -180 (C149_violated_180)."
 },
 "C15": {
  "note": "Proved for positive spacing without skew: points on or after the origin are all counted in their cell, and when any point lies before the origin the gridder raises an exception instead of dropping or misplacing it (C15_before_origin). Violated for negative spacing and for skewed grids (raises)."
 },
 "C150": {
  "note": "Proved over the reals for every root finder and tolerance: start, direction, shift and mirrors for all polygons whose area is a number; flat rings on every oblate ellipsoid. Missing: positive area, which fails for polygons that cross the equator (C150_violated_equator: a rectangle symmetric about the equator has area 0) and, as on the sphere (C96), for sides across the date line. The value itself is a truncated series and not compared with the true area. At the poles and for nodes half a turn apart the model's tangent is 0 where the code's is huge."
 },
 "C151": {
  "note": "Proved for all slices and all integers that are not negative, where of two slices each selects more than one row or column, including agreement with the values read by the same keys (through C05) and with center_coords for the whole grid. Missing because false: negative integers are taken literally (C151_violated_negative), integers beyond the grid are accepted (C151_violated_beyond), a slice of one row loses its axis (C151_violated_single_row), an empty slice raises (C151_violated_empty)."
 },
 "C152": {
  "note": "Proved: fields, order and values are right up to one more level of lists, nothing is lost, and what is refused raises TypeError. Missing because false: the column is wrapped in a list of one element (C152_violated_nesting, for every table and field), and numpy's unsigned and boolean numbers are refused (C152_violated_unsigned). NaN and infinities are left out."
 },
 "C153": {
  "note": "Proved: own parts are always members; exactness when no holes are involved; exactness for points of lines and polygons. Missing because false: a polygon with other holes than any part is reported as a member (C153_violated_holes), since equality of polygons ignores holes (C117)."
 },
 "C154": {
  "note": "Proved for every rounding with 53 bits and all zoom levels: right column at least 360/2^50 degrees inside the borders, the column found always contains the longitude up to 360/2^50 degrees, monotone, corners exact up to zoom level 40. Missing because false: the corner of tile 1 at zoom level 5 is looked up in tile 0 (C154_violated_corner), and the double below 180 in a column that does not exist (C154_violated_beyond). Rows (latitudes) are not modelled with rounding."
 },
 "C155": {
  "note": "Proved for every rounding with 53 bits: area, orientation and (up to one rounding) centroid exact for coordinates in whole units within stated sizes; an error bound for the area of any polygon without holes; orientation right whenever the area exceeds the stated rounding error. Missing because false: the centroid of a square of 1 m at ordinary map coordinates with one decimal is more than 800 m away (C155_violated_centroid); slivers get the wrong orientation (C155_violated_clockwise) or no area (C155_violated_area). Sums are taken from left to right (Python before 3.12 or numpy scalars)."
 },
 "C156": {
  "note": "Proved for every rounding with 53 bits: the right answer for any coordinates when no end is very close to the other segment's line (Distinct); in whole units up to 2^24 the same answer as without rounding for all pairs, the point within three roundings of the exact one and within the box of the first segment, the same number of intersections for lines and polygons, the same answer of the pair test of intersects. Missing because false: a path and a line that cross in a corner of the path are reported not to meet (C156_violated_missed); the point found depends on the order (C156_violated_order)."
 },
 "C157": {
  "note": "Proved for all geometries in their own system, for all flat geometries in any system, and for coords in general; vertices and coords agree; Cartesian systems are refused. Missing because false: lines, polygons and multipoints with heights raise AttributeError in any other system (C157_violated_line), points and parts of collections silently lose their heights (C157_violated_heights), a collection built from polygons with holes has no vertices in its own system (C157_violated_holes) and in another one shows the holes in the wrong place (C157_violated_hole_place)."
 },
 "C158": {
  "note": "Proved for geometries without heights and holes in any systems, and for lines with heights in one system. Missing because false: holes are lost (C158_violated_holes); lines and polygons with heights cannot be added to ones in another system (C158_violated_heights), points with heights hand vertices of different lengths to the multipoint (C158_violated_points)."
 },
 "C159": {
  "note": "Proved for polygons made from coordinates or points, with sub-polygons made in this way: contains answers for every point as the region says, and crossings with the closing side are found. Missing because false: contains raises TypeError for every polygon made with to_polygon (C159_violated_to_polygon) and for every part of every Multipolygon (C159_violated_parts); the parts of a Multipolygon lack their closing side in crossings (C159_violated_crossings), so that touching misses them (C159_violated_touching) and within returns parts that stick out (C159_violated_within)."
 },
 "C16": {
  "note": "Bilinear sampling is proved equal to the interpolation formula wherever all samples are readable; violated when all sample points lie on the first row or column of centres (raises) and for signed integer grids outside the centres (wraps round)."
 },
 "C160": {
  "note": "Proved for polygons all of whose systems can be converted to that of the point (or are it), and for polygons without holes read from files. Missing because false: a polygon with holes read from a shapefile with a coordinate system leaves its holes in the Cartesian default system, so that contains raises for every point in its ring (C160_violated_contains) and its area mixes units (C160_violated_area)."
 },
 "C161": {
  "note": "Proved: geometries whose converted boxes are apart do not intersect; without an index within_radius and within_polygon are exact for any conversion; with an index, radii are exact in one system and polygons for any affine conversion except on the border of the box, and never return a point outside. Missing because false: intersects sweeps the unconverted vertices and so misses (C161_violated_missed) and makes up (C161_violated_spurious) crossings and is not symmetric (C161_violated_order); intersections does the same (C161_violated_intersections) and answers where no conversion exists (C161_violated_incomparable); with an index a radius around a point of another system finds nothing as soon as positions move by twice the radius (C161_violated_radius), and polygons lose points when the conversion bends lines (C161_violated_polygon)."
 },
 "C162": {
  "note": "Proved for all structures without empty parts. Missing because false: an empty part anywhere raises IndexError, in constructors and in exports (C162_violated_empty); so a multiline with an empty part cannot be exported (C105_violated_empty_part, C106_violated_empty_part)."
 },
 "C163": {
  "note": "Proved for every geographical system, for definitions without the names latlon and lonlat, and for these two names where they are corrected; get_proj4 in general. Missing because false: the correction turns latlong, a name the library knows, into latlongg, so that the WKT text is empty (C163_violated_latlong); raster files of systems made with latlon have no reference (C163_violated_raster)."
 },
 "C164": {
  "note": "Proved for all grids of one band, for arbitrary functions of the list of values (C164_single_partial) and functions of single values (C164_pointwise_partial); without inplace the grid is never touched. Missing because false: on grids of two or more bands apply raises ValueError as soon as two cells hold data (C164_violated_bands, for every function that keeps the number of values), and in place it may change some bands before it raises (C164_violated_halfway)."
 },
 "C165": {
  "note": "Proved as a refinement: every history that gives no band object to two grids behaves as if grids were values, error by error (C165_values_partial); in any state a change of one grid is invisible in grids without a common band (C165_frame); after any history at all, shared bands or not, new grids show what they should and share no band with older ones, and copies keep the sharing among their own bands (C165_new, C165_copy_sharing). Missing because false: of two grids made of the same band, set_nodata_value on one turns the empty cells of the other into data (C165_violated_shared); grids that read from files can be neither copied nor resized (C165_violated_file)."
 },
 "C166": {
  "note": "Proved for projected and geographical systems and conversions that depend only on the definitions of the systems and are the identity within one system (Faithful, with a witness): C166_point_partial, C166_coords_partial, C166_positions_partial; clip for all systems. Missing because false: in Cartesian systems, the default, every such lookup with a geometry or system of the original raises NotImplementedError on the copy (C166_violated_cartesian)."
 },
 "C167": {
  "note": "Proved for every conversion along which each coordinate of the image goes one way on horizontal and on vertical lines (OneWay: all affine maps, cylindrical projections) and grids without opposing skew: C167_centers_partial, C167_edges_partial, C167_clip_partial; without skew the bounds are attained, for every conversion (C167_tight_partial). Missing because false: conversions that bend lines put centres outside the extent (C167_violated_bend) and make clip drop cells of the box (C167_violated_clip); opposing skew, see C19. data_extent with crs is not modelled."
 },
 "C168": {
  "note": "Proved for every rounding with 53 bits: error at most 8/2^53 of the largest value (C168_error), range (C168_between), outside (C168_outside), cell centres (C168_centre), no rounding at positions in multiples of a power of one half (C168_exact, C168_exact_integers), integers never off by more than one (C168_off_by_one) and exact unless the interpolated value is next to an integer (C168_integers_partial). Missing because false: an integer grid that is 3 throughout is sampled as 2 at (1.1, 1.2) (C168_violated_constant, C168_violated_point), a grid of doubles as less than 3 (C168_violated_below)."
 },
 "C169": {
  "note": "Proved for every rounding with 53 bits and every good square root: relative errors (C169_distance, C169_length), zero and sign (C169_zero), symmetry of distances (C169_symmetric), cumulative lengths (C169_cumulength), growth (C169_extend), nearest vertices (C169_nearest), exactness for whole coordinates and lengths (C169_exact). Missing because false: the length of a line may differ from that of its reverse (C169_violated_reverse), and a line by way of more vertices may have the smaller length (C169_violated_detour)."
 },
 "C17": {
  "note": "Scalar lookups are proved outright; vectors are proved for single-band grids with some point inside. Violated for several bands (values are scrambled) and when all points lie outside (raises)."
 },
 "C170": {
  "note": "Proved for all types and grids: assignment (C170_write), sums and differences up to multiples of 2^bits (C170_sum, C170_sub_add), nodata values that are numbers of the type (C170_nodata_partial, C170_resize_partial). Missing because false: a nodata value outside the type turns all missing pixels into data (C170_violated_nodata, C170_violated_resize), sums outside the type wrap around (C170_violated_overflow), and pixels missing in both grids hold data in the sum and the difference (C170_violated_missing). Bands of different types in one grid are not modelled."
 },
 "C171": {
  "note": "Proved over the reals: every positive spacing (C171_to_points), every n of at least two (C171_to_npoints), with bounds on the rounds. Missing because false: a spacing of zero or less never ends on any line of positive length (C171_violated_spacing), and neither does to_npoints(0) (C171_violated_npoints)."
 },
 "C172": {
  "note": "Proved for every rounding that satisfies the assumptions of Float/Basic.lean. Shifting there and back is proved for coordinates and shifts that are whole numbers of units of a power of two, at most 2^52 of them (C172_back_partial). Missing because false: a far shift merges vertices and cannot be undone (C172_violated_back), and two shifts differ from the shift by their sum (C172_violated_steps)."
 },
 "C173": {
  "note": "Error bound, missing cells and the sign of the first component are proved outright. The sign of the second component is proved where no value of one side exceeds a value of the other (C173_sign_y_partial), and independence of an offset for elevations in units of a power of two, at most 2^21 of them (C173_units_partial, C173_offset_partial). Missing because false: rows that agree get a slope between them, because the two sides are added up in different orders (C173_violated_sign_y), and an offset of 2^25 removes a slope of one (C173_violated_offset)."
 },
 "C174": {
  "note": "Error bounds are proved for segments wider than 0.0001 (C174_wide, growing with the slope of the segment), and for narrower ones that are not horizontal (C174_narrow); horizontal and vertical segments get points exactly on them (C174_axis). Every vertex but the last is at distance zero (C174_vertex). Missing because false: the last vertex of a line may be at a positive distance, because fl(fl(x1 - x0) + x0) need not be x1 (C174_violated_end), and on horizontal segments narrower than 0.0001 the point returned may be anywhere (C174_violated_short)."
 },
 "C175": {
  "note": "Proved over the reals: the value is the integral of the zone area along the geodesic (both integrals of the specification are exact, and C175_geodesic shows that its curve is a geodesic), with an explicit bound on the error (C175_side_partial, C175_area_partial). Missing because false: the error is of fifth and not of sixth order, because one of the coefficients is wrong (C175_violated_coefficient: 90/9009 where 80/9009 is right; C175_series_partial shows that all others are right). Missing from the model: rounding, sides that reach a pole, and sides to the opposite latitude that start southwards."
 },
 "C176": {
  "note": "Proved over the reals. The specification integrates the length and the longitude along a geodesic exactly, and C176_geodesic shows that its curve is a geodesic with that speed. All coefficients of A1, C1, C1p, A3 and C3 are thereby shown to be right. Rounding is not modelled."
 },
 "C177": {
  "note": "Proved over the reals; that the geodesic is the shortest is not claimed, nor that the iteration converges for a fine tolerance (C177_first shows it for a coarse one). Pairs on the equator are left out (C77). Rounding is not modelled. On the Earth the errors are 1e-10 m and the tolerance plus 1e-16 radians."
 },
 "C178": {
  "note": "The test of one side is proved right for all sides and points (C178_side, C178_direction). The count is proved for all sides but the last one of a line (C178_line_partial) or the closing one of a ring (C178_ring_partial), which are never counted; its parity agrees with containment if the ray does not meet the closing side (C178_inside_partial, C178_contains_partial). Missing because false: C178_violated_line, C178_violated_ring. Rounding is not modelled."
 },
 "C179": {
  "note": "Proved over the reals for numbers and for sequences; the compiled azimuth_sph is the same function. Missing because false: one position cannot be combined with many, the call raises TypeError (C179_violated_mixed). Second positions at a pole, where the tangent is not defined, and rounding are not modelled."
 },
 "C180": {
  "note": "C180_vertices holds for any rounding and library. C180_encloses_partial needs coordinates in units of a power of two with at most 22 bits, and the conditions of C46 (not collinear, one position on the lowest ray). With more digits a vertex can be lost (C180_violated_lost_vertex, coordinates of 29 bits, any accurate atan2). Operations are rounded one by one (no fused multiply-add) and do not overflow or underflow."
 },
 "C181": {
  "note": "C181_error and C181_near bound the error of every distance returned. C181_defined_partial: a distance is returned unless the positions are within 2^-22 radians of the same or of opposite positions. Missing because false: on the antimeridian the argument of acos can exceed 1, and the call raises ValueError (C181_violated_raises, for cosines rounded to the nearest)."
 },
 "C182": {
  "note": "Holds in one planar system with as many coordinates in the point as in the vertices (C182_flat, C182_agree). Otherwise the methods differ: with other numbers of coordinates flat_distances_to raises ValueError and distances_to ignores heights (C182_other_rank, C182_other_rank_ground); for a point in another system flat_distances_to subtracts coordinates of different systems (C182_violated_other_system)."
 },
 "C183": {
  "note": "C183_near: a row is returned, and it contains the latitude up to 2^-46 of the height of the map (0.6 micrometres). C183_inside_partial: the row is right for latitudes that far inside. C183_order: for libraries that keep the order, so do rows. Missing because false: just north of a border the row to the south may be returned, with every accurate library (C183_violated_border)."
 },
 "C184": {
  "note": "C184_accuracy, C184_order and C184_equator hold as stated. Looking up a corner gives the row of the tile or the next one to the north (C184_lookup_partial); it is not always the row of the tile: with doubles and every accurate library, the corner of row 54351 at zoom level 19 is looked up in row 54350 (C184_violated_lookup). By the same formulas 25 of the rows at zoom level 7 are affected with the usual library; this is computed, not proved."
 },
 "C185": {
  "note": "Proved for to_shapefile with every name. write_shapefile hands its name to the driver as it is: names ending in .shp are read back (C185_write_with_extension_partial), all others are not (C185_violated_plain_name). What the OGR driver does with a path is reduced to: it opens what it created under the same path."
 },
 "C186": {
  "note": "True as described for one band; for every grid of two or more bands the shape is (m, n) and not (N, m, n) (C186_violated_several_bands). The agreement of m and n with iteration and with grid[:,:] is proved for any number of bands; grid[:,:] has a last dimension for the bands also when there is one."
 },
 "C19": {
  "note": "The extent is exact for transforms whose skew terms are zero or of the same sign as the spacing; for opposite signs the code returns a box that misses part of the grid (witness)."
 },
 "C20": {
  "note": "Start vertex: proved for all transforms. Reversal: proved unless a side is horizontal and the grid's rows are slanted (then one direction raises). Rows outside: proved for positive spacing without skew; columns outside: proved for square cells, violated for oblong cells, where the crossing column is computed in map units."
 },
 "C21": {
  "note": "The reader is proved correct for every well-formed file. The writer is shown to be broken for every grid: self[:,:] keeps a band axis, each pixel is printed as '[v]', and read_aai raises ValueError on the file. Even without the brackets the writer emits the bottom row first while the reader expects the top row first."
 },
 "C22": {
  "note": "Proved for unskewed grids of at least two rows and columns, pixels and nodata included. Violated for every skewed grid (read_geotiff negates the skews and displaces the corner) and for single-row or single-column grids (squeeze drops an axis; the file cannot be read into memory)."
 },
 "C23": {
  "note": "Proved for every window of files with at least two rows and columns; in-memory reading raises for single-row or single-column files."
 },
 "C24": {
  "note": "Exact arithmetic; NaN coordinates not modelled."
 },
 "C25": {
  "note": "Termination stated through fuel: from some fuel on the result exists and no longer changes. Capacity one provably diverges (C25_capacity_one_diverges)."
 },
 "C26": {
  "note": "Soundness is proved for every tree. Exactness is proved for indices whose geometries fit in one node, and for trees of two levels when every division of a leaf used two different seeds and boxes that contain their entries (C26_two_levels_partial). Completeness is violated otherwise: both seeds of a division can be the same item, in which case the last geometry is dropped (and the first is stored twice, so that freeing the tree frees its box twice); topping a node up to two items leaves its box stale; after the division of an inner node the moved children keep their old parent, so that later insertions extend the wrong box (C26_violated_stale_parent); flat geometries never overlap anything."
 },
 "C27": {
  "note": "Soundness is proved for every tree, query and limit; without limit, exactness for one node and for trees of two levels built without mishap (C27_two_levels_partial). max_results is not respected: a leaf is always scanned to the end, and the overlap search never counts its results."
 },
 "C28": {
  "note": "Proved for single assignments and whole histories. On a table without rows setfield discards the other columns (C28_empty_table_keeps_only_new_column)."
 },
 "C30": {
  "note": "True for tables with rows; false for tables without rows, where fields are lost. The receiver is a value in the model, so that it is unchanged holds by construction."
 },
 "C31": {
  "note": "_subset passes a set as the field list: with two or more attributes the columns can be permuted (violated). Proved for iteration order equal to column order, and outright for at most one attribute."
 },
 "C32": {
  "note": "Bounding boxes of vertex lists and of multipart geometries are the tightest boxes."
 },
 "C33": {
  "note": "Overlap test of bounding boxes equals positive-area overlap; 32-bit float underflow of the width is not modelled."
 },
 "C34": {
  "note": "Segment intersection: a point is returned exactly for non-parallel segments that meet, and it is the common point."
 },
 "C35": {
  "note": "all_intersections lists exactly the pairwise crossings; symmetric up to order."
 },
 "C36": {
  "note": "Proved: no false alarms and termination when no non-vertical segment is drawn twice; exact answer when no geometry crosses itself and the two do not meet in vertices, also for the method that compares bounding boxes first; what lies to the right of the first contact makes no difference (C36_first_contact_partial); vertical segments always noticed. Missing: geometries that cross themselves to the left of the first contact, where a proper crossing can be missed (C36_violated_self_crossing). False: lines that touch end to end from opposite sides are never found to intersect although the brute-force search reports the point (C36_violated_touch); overlapping vertical lines are missed; a retraced segment makes the loop endless."
 },
 "C37": {
  "note": "Exact for two segments drawn to the upper right, lower right or upper left, and upwards along a vertical (the _partial theorems). Violated for all others that are drawn alike: always False for two segments drawn to the lower left (C37_violated_southwest), always True for horizontal segments at one height (C37_violated_same_height); and False for a segment inside a second one drawn the opposite way (C37_violated_opposite)."
 },
 "C38": {
  "note": "Invariance under rotation of the vertex list, duplicates, affine maps of positive determinant, exclusion outside the bounding box, exactness for convex rings."
 },
 "C39": {
  "note": "Containment and area with nested holes."
 },
 "C40": {
  "note": "Area invariances, affine scaling, triangle formula."
 },
 "C41": {
  "note": "isclockwise is the sign of the area sum; the reversal flips it."
 },
 "C42": {
  "note": "Centroid is affine equivariant, independent of starting vertex and orientation, defined iff the signed area is nonzero, area-weighted mean under cuts."
 },
 "C43": {
  "note": "Per-vertex action, composition, rigidity of rotation, refused matrix shapes. Violated: three-row matrices on planar geometries do not compose."
 },
 "C44": {
  "note": "Violated for horizontal segments shorter than 0.0001; partial for all other segments of positive length. Squared distances."
 },
 "C45": {
  "note": "Violated: a polygon's closing segment is left out; within_distance requires all segments to be near. Partial: exact for lines."
 },
 "C46": {
  "note": "Proved: for vertices not all on one line through the leftmost one, the polygon turns left throughout and encloses every vertex, provided the lowest ray from the leftmost vertex carries one position; without that proviso every vertex off that ray is enclosed; returned vertices are always input vertices starting with the leftmost. Missing: a nearer vertex on the lowest ray can replace a farther one (violated), collinear input, IndexError on repeated leftmost vertices and on a single vertex. Spherical coordinates are the subject of C139, rounding that of C180."
 },
 "C47": {
  "note": "Proved for every history of bbox, extent, length and extend calls with any arguments (C47_recomputed_partial, C47_queries). False after Multipoint.__setitem__, which leaves the cache in place (C47_violated_assignment); after Line.extend the attributes cannot be computed at all (C47_violated_extend)."
 },
 "C48": {
  "note": "Angles in degrees over rational numbers; the radian versions are the same expressions with another period."
 },
 "C49": {
  "note": "Canonicalisation and its inverse as used by the geodesic solver, over rational numbers."
 },
 "C50": {
  "note": "crosses_dateline on longitudes in [-180, 180) and the Line/Polygon method built on it."
 },
 "C51": {
  "note": "Tile indices over real numbers, with the logarithm and tangent of Mathlib; floor of exact values, no rounding."
 },
 "C52": {
  "note": "For every rational function and interval, with exact arithmetic: an answer lies in the interval and is a root or within tol of a change of sign; ValueError exactly when the ends have the same strict sign; no division by zero."
 },
 "C53": {
  "note": "Gradient and divergence over any field, slope over the reals; transforms without skew and with non-zero cell sizes of either sign; float32 rounding is not modelled."
 },
 "C54": {
  "note": "Distinctness and termination of the renaming are proved for all attribute names and any upper-casing function; length <= 10 when no character grows in upper case. Violated: an attribute called id gives a column ID beside the reserved id; names with characters such as the sharp s exceed ten characters."
 },
 "C55": {
  "note": "len(v) is the only thing the code looks at: a string with n characters counts as per-part data (see C57)."
 },
 "C57": {
  "note": "Proved for no data and for dictionaries of sequences; violated for parts without common property keys (no rows at all), for string values with n characters, and for Table arguments of another length."
 },
 "C58": {
  "note": "Reading is proved. Assigning is right only when the set of field names is iterated in column order; violated otherwise."
 },
 "C61": {
  "note": "Winding counts and signed areas are additive under cutting along any path."
 },
 "C62": {
  "note": "Violated: points of the upper and right edge of a rectangle are not contained. Proved for every polygon with holes: the answer for any point, on the boundary or not, is the answer for the points just to its right (C62_just_right_partial); exact for the sides of convex polygons and for rectangles."
 },
 "C63": {
  "note": "Violated: holes are dropped. Partial: geometries without holes."
 },
 "C64": {
  "note": "All rows but the last are proved; the last row is never written."
 },
 "C65": {
  "note": "Proved for boxes that do not reach before the first row or column. A box reaching beyond the left edge yields the right pixels with a shifted transform (witness)."
 },
 "C66": {
  "note": "The keep-or-erase effect relative to the computed mask is proved for all grids and polygon lists. On grids with square cells, positive spacing and no skew, for polygons of any shape with vertices anywhere: the mask agrees with containment of the centre for every cell unless a side passes through its lower half or within half a cell below it (C66_away_partial). That the mask is the interior is also proved for rectangles (any corner, either direction) on grids with oblong cells. For vertices at corners of square cells the mask consists of the cells the middle of whose lower side is contained (C66_corner_polygons_partial); with respect to centres it is violated for slanting sides, negative row spacing (mask upside down) and oblong cells. Polygon holes are ignored by the code."
 },
 "C67": {
  "note": "The exact acceptance condition is proved; the chained comparison sx != sy != 0.0 lets skewed grids through, whose files lose the skew."
 },
 "C68": {
  "note": "Proved in full; GDAL's storage and data type conversion are trusted."
 },
 "C69": {
  "note": "Proved for geotransforms without skew terms and files of at least two rows and columns; violated for every geotransform with a skew term."
 },
 "C70": {
  "note": "Equal sizes are enforced (proved); geotransforms are not compared at all: any two same-sized files with numeric nodata values are combined (violated for all such pairs)."
 },
 "C71": {
  "note": "Complete case analysis over the twelve numpy types: seven survive, the others change or are refused."
 },
 "C72": {
  "note": "Proved while all geometries fit in one node, and again for trees of two levels built without mishap once more than one geometry was added after the first division; right after the first division of the root the property is the inverted placeholder box, for every input."
 },
 "C73": {
  "note": "Proved by a balance invariant kept by every insertion, including those that leave wrong parent pointers. Capacities below 4 end the process, which is the exact limit."
 },
 "C74": {
  "note": "Proved: the exact condition tested by the code, and that rings that move in one direction only are recognised. Missing: a ring that crosses the dateline and comes back is reported as polar (violated)."
 },
 "C75": {
  "note": "Proved: for ends that are not exactly opposite the answer is membership of the shorter arc. Violated for exactly opposite ends, where the answer is always False."
 },
 "C76": {
  "note": "Proved: all vertices are covered when no step crosses the dateline, and for lines whose last step alone crosses it (C76_last_step_partial). Violated when the line goes on after a crossing and for longitude 180."
 },
 "C77": {
  "note": "Proved when the longitudes differ by at most 180. Violated beyond, where the long way round is measured."
 },
 "C78": {
  "note": "Proved for gradient. For divergence only when nodata is NaN: any other nodata value is used as a number (violated)."
 },
 "C79": {
  "note": "Proved for grids of at least 3 x 3 (slope raises ValueError on smaller ones) and for interior slopes. Violated: the gradient of a one-row grid has two rows; border slopes are extrapolated and can be negative."
 },
 "C80": {
  "note": "Proved when the surface is level from south to north; in general the aspect is that of the mirrored surface (proved), so a surface rising north is said to face north (violated)."
 },
 "C81": {
  "note": "Proved where both components are numbers. Violated beside missing values, where one component alone can be computed."
 },
 "C82": {
  "note": "Proved for attributes with a storable value among the first hundred features; violated for an attribute first set in the 101st feature, which is dropped. OGR's own behaviour is not modelled."
 },
 "C83": {
  "note": "Proved without the spatial index for every history of assignments, and with it before the first assignment. False with the index after an assignment: __setitem__ leaves the quadtree unchanged (C83_violated_indexed)."
 },
 "C84": {
  "note": "Fully proved over the reals."
 },
 "C85": {
  "note": "Planar systems: proved (C85_walk_there, C85_azimuth_defined, C85_after_walk). Geographical systems: the azimuth is NaN for points on one meridian because lat0 == lat1 is tested where != is meant (C85_violated_meridian)."
 },
 "C86": {
  "note": "Proved when all points have equally many coordinates; false when 2-D and 3-D points are mixed (C86_violated_mixed)."
 },
 "C87": {
  "note": "Proved over the reals, for sphere_distance (with its switch of formulas) and for the compiled dist_sph. Rounding of sphere_distance is the subject of C181."
 },
 "C88": {
  "note": "Proved on the northern side; false for every vector below the equator (latitude beyond 90), at the poles (ZeroDivisionError) and next to the meridians 90 and -90 on the far side."
 },
 "C89": {
  "note": "Soundness (on both great circles; longitude between the ends, latitude between the ends on meridian segments) proved except where the product of the two poles is within 1e-4 of the plane x = 0 on the far side. Missing because false: there the position may lie on neither the crossing nor one of the segments (C89_violated_far_side), and the latitude can be beyond 90 for southern crossings (C89_violated_south)."
 },
 "C90": {
  "note": "NoIntersection of any one pair aborts the whole query (C90_violated_one_miss), segments that run southwards along a meridian never cross anything (C90_violated_southward), and crossings of segments shorter than half a degree between the meridians 90 and 180 are missed or found depending on the order of the lines (C90_violated_far_side, C90_violated_order); proved when every pair of segments crosses."
 },
 "C91": {
  "note": "Fully proved over the reals for planar systems."
 },
 "C92": {
  "note": "Proved (count and exact positions) for lines longer than 1e-8 times the number of gaps; the last point is exact if the last segment is longer than 1e-8 and within 1e-8 otherwise. False for shorter lines, where points are missing (C92_violated_short)."
 },
 "C93": {
  "note": "Proved when every segment after the first is at least as long as the spacing (or has no length). False otherwise: the remainder of consecutive short segments is overwritten instead of added up (C93_violated_short_segments)."
 },
 "C94": {
  "note": "Proved over the reals for spheres when the destination is not a pole (there tan is not defined), and for the equator of every ellipsoid. Other directions on an ellipsoid, where the code uses truncated series, are the subject of C176."
 },
 "C95": {
  "note": "Proved over the reals. Poles are excluded because the code takes the tangent of the latitude there."
 },
 "C96": {
  "note": "Proved when every ring stays on one side of the equator, keeps away from the poles and does not cross the date line. False otherwise: a quadrangle symmetric about the equator has area 0 (C96_violated_equator), and sides across the date line count with the wrong sign (C96_violated_dateline). The area is an integral over longitude in the specification."
 },
 "C97": {
  "note": "Proved for points off the equator when the longitudes are equal, opposite, or not nearly opposite and the latitudes do not nearly cancel. False otherwise: the solver divides by the flattening 0 when the latitudes nearly cancel (C97_violated_cancelling). Points both on the equator are treated in C77, ellipsoids in C177."
 },
 "C98": {
  "note": "Proved for all rings and nested polygons: the winding count is constant along segments that avoid the boundary, zero to the left of the ring, and changes by exactly one when one side is crossed."
 },
 "C99": {
  "note": "Soundness for any number of parts and exactness for parts with a width and a height whose index is intact (at most fifty parts, or two levels built without mishap), when neither geometry crosses itself, they do not meet in vertices (C36) and the parts avoid the holes' boundaries. False otherwise: a line across a hole is returned (C99_violated_hole), horizontal and vertical lines never are (C99_violated_flat); beyond fifty parts the index itself can lose parts (C26). The theorems hold for open and closed parts; the parts of a Multipolygon are open, without their closing side (C159_violated_within)."
 }
}