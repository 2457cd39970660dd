{"id": "C01", "title": "Compressed band behaves as a plain 2-D array", "statement": "After any sequence of in-range setblock calls on a CompressedBand, getblock over any in-range window succeeds and every returned pixel is the value most recently written to that pixel, or the initial value if it was never written; no returned cell is left uninitialised.", "quantifier": "all band sizes, all positive chunk sizes, all initial values, all finite histories of in-range block writes (any offsets, any shapes incl. empty), all in-range read windows", "why_tests_cant": "The chunk arithmetic has to be right for every alignment of block, chunk and band edge and for every interleaving of writes; a test fixes one geometry.", "anchors": ["karta/raster/band.py: CompressedBand.setblock, getblock, _getchunks, _store, _retrieve, __init__"]}
{"id": "C02", "title": "Chunk size is unobservable", "statement": "Two CompressedBands of the same size and initial value but different chunk sizes return identical pixels after the same sequence of in-range block writes.", "quantifier": "all pairs of positive chunk sizes, all write histories, all read windows", "why_tests_cant": "Needs equality over all pairs of chunk geometries and all histories.", "anchors": ["karta/raster/band.py: CompressedBand"]}
{"id": "C03", "title": "SimpleBand and CompressedBand are interchangeable", "statement": "Fed the same in-range writes, SimpleBand and CompressedBand return identical arrays from every in-range getblock.", "quantifier": "all sizes, chunk sizes, write histories and read windows", "why_tests_cant": "Equivalence of two implementations over unbounded histories.", "anchors": ["karta/raster/band.py: SimpleBand, CompressedBand"]}
{"id": "C04", "title": "Out-of-range block writes do not corrupt other pixels", "statement": "A setblock whose block leaves the band never changes the value of any pixel outside the requested block.", "quantifier": "all bands, all block offsets and shapes including ones beyond the right edge", "why_tests_cant": "Corruption appears only for particular relations of width, chunk width and offset.", "anchors": ["karta/raster/band.py: CompressedBand.setblock, _getchunks"]}
{"id": "C05", "title": "Sliced reads follow Python slice semantics", "statement": "Reading a grid with integer or slice keys (any start/stop/step, positive or negative, omitted or out of range) returns exactly the rows and columns enumerated by Python's range over slice.indices, in that order, for each selected band.", "quantifier": "all band sizes, all slice triples with non-zero step, all integer keys, all band contents", "why_tests_cant": "Unbounded combinations of sign, range and step; the code reverses negative steps by hand.", "anchors": ["karta/raster/band.py: BandIndexer.__getitem__"]}
{"id": "C06", "title": "Sliced writes are exact", "statement": "Assigning through integer or unit-step slice keys changes exactly the addressed pixels of the addressed bands to the (broadcast) value and leaves every other pixel of every band unchanged; stepped slices are refused without any change.", "quantifier": "all band sizes, chunk sizes, numbers of bands, keys and values, from every reachable band state", "why_tests_cant": "Frame conditions over all untouched pixels and all states cannot be enumerated.", "anchors": ["karta/raster/band.py: BandIndexer.__setitem__"]}
{"id": "C07", "title": "Boolean-mask reads and writes", "statement": "Assigning through a boolean mask changes exactly the masked pixels of each band, and reading back through the same mask returns the assigned values; a mask read lists masked pixels in row-major order.", "quantifier": "all masks, all band sizes and counts, all values", "why_tests_cant": "All masks over all sizes.", "anchors": ["karta/raster/band.py: BandIndexer._get_from_array_mask, _set_from_array_mask"]}
{"id": "C08", "title": "Iterating a grid yields its rows once each, in order", "statement": "Iteration yields one item per row, item i holding row i of every band.", "quantifier": "all sizes, band counts and contents", "why_tests_cant": "Must hold for every size and chunk layout.", "anchors": ["karta/raster/band.py: BandIndexer.__iter__"]}
{"id": "C09", "title": "Cell positions invert cell coordinates", "statement": "For every non-singular transform, converting the centre coordinate of cell (i,j) to fractional indices returns exactly (i,j), and converting fractional indices of any point back to coordinates returns the point.", "quantifier": "all non-singular affine transforms incl. skew and negative spacing with non-zero row spacing, all cells and all points, over exact arithmetic", "why_tests_cant": "Algebraic identity over six real parameters.", "anchors": ["karta/raster/grid.py: RegularGrid.positions, center_coords", "karta/raster/crfuncs.pyx: get_positions_vec", "karta/raster/coordgen.py: CoordinateGenerator.__getitem__"]}
{"id": "C10", "title": "Point lookup returns the containing cell", "statement": "The index lookup for a point strictly inside cell (i,j) of the grid returns (i,j); a point at least half a cell outside the grid raises an error; every returned index is in range.", "quantifier": "all grids, all points", "why_tests_cant": "Rounding boundaries over a continuum.", "anchors": ["karta/raster/grid.py: RegularGrid._indices, indices"]}
{"id": "C11", "title": "Tiling a grid into chunks covers every pixel exactly once", "statement": "aschunks with no overlap yields windows that together cover every pixel of the grid exactly once, each carrying the pixels and georeference of its window; with overlap the windows still cover every pixel.", "quantifier": "all grid sizes, all window sizes larger than the overlap", "why_tests_cant": "Loop termination and coverage for all sizes.", "anchors": ["karta/raster/grid.py: RegularGrid.aschunks"]}
{"id": "C12", "title": "Clipping preserves pixel values and georeferencing", "statement": "For a clip window inside the grid, each pixel of the clipped grid has the value and the coordinates of the corresponding pixel of the original grid.", "quantifier": "all grids, all clip windows, all pixels", "why_tests_cant": "Index/offset arithmetic over all windows.", "anchors": ["karta/raster/grid.py: RegularGrid.clip"]}
{"id": "C13", "title": "Resizing preserves aligned data and fills with nodata", "statement": "resize to any overlapping bounding box keeps the value of every cell lying in both extents at the same coordinates and fills every other cell with the nodata value.", "quantifier": "all grids and all target boxes that overlap and are aligned to the grid", "why_tests_cant": "Off-by-one at each of four sides for unboundedly many boxes.", "anchors": ["karta/raster/grid.py: RegularGrid.resize"]}
{"id": "C14", "title": "Merging grids is a per-cell weighted mean", "statement": "merge returns a grid spanning the union of extents in which every cell is the weighted mean of the valid values of all inputs covering it, and nodata where none does; with a single input it is the identity on valid cells.", "quantifier": "all lists of aligned grids, all positive weights, all nodata patterns", "why_tests_cant": "Quantifies over all lists of inputs and overlaps.", "anchors": ["karta/raster/grid.py: merge"]}
{"id": "C15", "title": "Gridding points averages them per cell", "statement": "gridpoints assigns each cell the mean of the z-values of the points whose location falls in it and nodata to cells with none; the count-weighted sum of cells equals the sum of the inputs.", "quantifier": "all point lists, all grid shapes", "why_tests_cant": "Induction over arbitrary point lists.", "anchors": ["karta/raster/grid.py: gridpoints", "karta/raster/crfuncs.pyx: fillarray_double"]}
{"id": "C16", "title": "Bilinear sampling interpolates", "statement": "At a cell centre bilinear sampling returns the cell value; between centres it returns a convex combination of the four surrounding values (so it lies between their min and max); it reproduces any affine surface exactly; it returns nodata outside.", "quantifier": "all grids, all sample positions, over exact arithmetic", "why_tests_cant": "Continuum of positions; boundary branches.", "anchors": ["karta/raster/crfuncs.pyx: sample_bilinear_double, sample_bilinear_int, sample_bilinear_uint", "karta/raster/grid.py: RegularGrid.sample_bilinear"]}
{"id": "C17", "title": "Nearest-neighbour sampling returns the nearest cell of each band", "statement": "sample_nearest returns for each query point and band the value of the cell containing the point and nodata for points off the grid.", "quantifier": "all grids, band counts, lists of query points", "why_tests_cant": "Layout of results over all lengths and band counts.", "anchors": ["karta/raster/grid.py: RegularGrid.sample_nearest"]}
{"id": "C18", "title": "Changing the nodata value keeps data intact", "statement": "set_nodata_value changes exactly the pixels that were nodata into the new nodata value, and the data mask is unchanged provided no valid pixel equals the new value.", "quantifier": "all grids, all nodata values", "why_tests_cant": "All pixel contents.", "anchors": ["karta/raster/grid.py: RegularGrid.set_nodata_value, data_mask, data_mask_full"]}
{"id": "C19", "title": "Grid extent bounds all pixels", "statement": "extent/bbox contain every pixel centre (and every pixel corner for the edge reference) of the grid, and are tight.", "quantifier": "all transforms incl. skew and negative spacing, all sizes", "why_tests_cant": "Sign cases of six parameters.", "anchors": ["karta/raster/grid.py: RegularGrid.extent, bbox"]}
{"id": "C20", "title": "Polygon masking is independent of vertex order", "statement": "mask_poly returns the same mask for a polygon whatever vertex it starts from and whichever way round it is listed, and cells left or right of all vertices, above or below all vertices, are outside.", "quantifier": "all vertex lists, all grid sizes and transforms with equal row mapping", "why_tests_cant": "All rotations/reversals of all polygons.", "anchors": ["karta/raster/grid.py: mask_poly, RegularGrid.mask_by_poly"]}
{"id": "C21", "title": "ASCII grid write/read round trip", "statement": "Writing a grid with to_aai and reading it back with read_aai returns the same values at the same coordinates.", "quantifier": "all single-band unskewed grids", "why_tests_cant": "All contents and sizes, formatting and row order.", "anchors": ["karta/raster/grid.py: RegularGrid.to_aai", "karta/raster/_aai.py: aairead", "karta/raster/read.py: read_aai"]}
{"id": "C22", "title": "GeoTIFF georeference round trip", "statement": "The geotransform written for a grid, when read back, yields the grid's original transform.", "quantifier": "all transforms, all sizes", "why_tests_cant": "Six-parameter algebraic identity.", "anchors": ["karta/raster/_gdal.py: write", "karta/raster/read.py: read_geotiff"]}
{"id": "C23", "title": "File-backed band agrees with in-memory band", "statement": "Reading any in-range window through the file-backed band returns the same pixels as reading the whole file into memory and slicing.", "quantifier": "all file sizes, all windows", "why_tests_cant": "Row-flip arithmetic for all windows.", "anchors": ["karta/raster/_gdal.py: GdalFileBand.getblock, read"]}
{"id": "C24", "title": "Quadtree box search is sound and complete", "statement": "QuadTree.search_within(box) returns exactly the indices of the points strictly inside the box, each exactly once, including repeated coordinates.", "quantifier": "all point lists, all leaf capacities of at least two, all query boxes", "why_tests_cant": "Depends on recursive splits of arbitrary point sets.", "anchors": ["karta/vector/quadtree.h: qt_insert, qt_split, qt_search_within", "karta/vector/quadtree.pyx: QuadTree"]}
{"id": "C25", "title": "Quadtree construction terminates", "statement": "Building a quadtree terminates for every list of points (in exact arithmetic) when the leaf capacity is at least two.", "quantifier": "all point lists", "why_tests_cant": "Termination over all inputs.", "anchors": ["karta/vector/quadtree.h: qt_insert, qt_split"]}
{"id": "C26", "title": "R-tree overlap search is complete", "statement": "RTree.search_overlapping(box) returns exactly the geometries whose bounding box overlaps the query.", "quantifier": "all lists of boxes, all queries", "why_tests_cant": "Node splits depend on arbitrary insertion histories.", "anchors": ["karta/vector/rtree.h: rt_insert, rt_split_leaf, rt_split_nonleaf, rt_search_overlapping, linear_pick_seeds", "karta/vector/rtree.pyx: RTree"]}
{"id": "C27", "title": "R-tree containment search is sound", "statement": "Every geometry returned by RTree.search_within has a bounding box inside the query box, and the result is limited as documented.", "quantifier": "all lists of boxes, all queries", "why_tests_cant": "Arbitrary insertion histories.", "anchors": ["karta/vector/rtree.h: rt_search_within"]}
{"id": "C28", "title": "Table columns: set then get", "statement": "After setfield(f, values) on a table with rows, getfield(f) returns values, every other field is unchanged, and the row count is unchanged.", "quantifier": "all well-formed tables, fields and value lists", "why_tests_cant": "All tables.", "anchors": ["karta/vector/table.py: Table.setfield, getfield"]}
{"id": "C29", "title": "Table extend and merge are row concatenation with inner join", "statement": "extend appends exactly one row per row of the other table, matching columns by name and filling with None; merge of tables and records keeps exactly the common fields and concatenates rows in order.", "quantifier": "all tables and lists of mappings", "why_tests_cant": "All field permutations.", "anchors": ["karta/vector/table.py: Table.extend, merge"]}
{"id": "C30", "title": "Table update overrides and preserves columns", "statement": "updated(mapping) returns a table with all fields of both operands, mapping's values winning, and leaves the receiver unchanged.", "quantifier": "all tables and mappings", "why_tests_cant": "All field sets.", "anchors": ["karta/vector/table.py: Table.updated"]}
{"id": "C31", "title": "Selecting a subset of a Multipoint keeps attributes with their points", "statement": "within_bbox / within_radius / within_polygon return each selected point with the attribute values it had in the original collection, in original order.", "quantifier": "all multipoints with attribute tables, all selections", "why_tests_cant": "Depends on hash ordering of field names (set) - every schedule of that order.", "anchors": ["karta/vector/geometry.py: MultiVertexMixin._subset, Multipoint.within_bbox, within_radius, within_polygon", "karta/vector/table.py: Table.fields"]}
{"id": "C32", "title": "Planar bounding box is the tightest enclosing box", "statement": "bbox of any non-empty coordinate list contains every vertex and each side is attained by a vertex; bbox of a multipart is the union of the members' boxes.", "quantifier": "all coordinate lists", "why_tests_cant": "Induction over lists.", "anchors": ["karta/vector/vectorgeo.pyx: bbox", "karta/vector/geometry.py: MultiVertexMixin.bbox, MultiVertexMultipartMixin.bbox"]}
{"id": "C33", "title": "Bounding-box overlap tests are symmetric and exact", "statement": "Two boxes are reported as overlapping iff they share at least one point (touching counts), symmetrically.", "quantifier": "all pairs of well-formed boxes", "why_tests_cant": "Continuum.", "anchors": ["karta/vector/intersection.pyx: bboxes_overlap", "karta/vector/geometry.py: MultiVertexMixin._bbox_overlap"]}
{"id": "C34", "title": "Segment intersection is sound", "statement": "Whenever the planar intersection of two segments is reported, the returned point lies on both segments; crossings interior to both segments are always reported; parallel segments report none.", "quantifier": "all pairs of segments", "why_tests_cant": "Continuum.", "anchors": ["karta/vector/intersection.pyx: intersection"]}
{"id": "C35", "title": "intersections() reports every proper crossing and nothing else", "statement": "all_intersections lists a point for every pair of segments that cross at interior points, every listed point lies on both geometries, and the list is symmetric under exchanging the two geometries.", "quantifier": "all pairs of lines/polygons", "why_tests_cant": "Pairs of arbitrary length lists.", "anchors": ["karta/vector/intersection.pyx: all_intersections"]}
{"id": "C36", "title": "Sweep intersection test agrees with brute force", "statement": "intersects(a,b) is True whenever a segment of a and a segment of b cross at interior points.", "quantifier": "all pairs of lines/polygons", "why_tests_cant": "Sweep order and ties for arbitrary inputs.", "anchors": ["karta/vector/intersection.pyx: intersects, SweepLinePlaceholder, EventQueuePlaceholder, iscollinear"]}
{"id": "C37", "title": "Collinear overlap test", "statement": "The collinearity test used by intersects answers True exactly when two segments lie on a common line and share a point.", "quantifier": "all pairs of segments", "why_tests_cant": "Continuum of degenerate positions.", "anchors": ["karta/vector/intersection.pyx: iscollinear, overlaps"]}
{"id": "C38", "title": "Polygon containment is a winding-number test", "statement": "Polygon.contains is invariant under translation, under choice of starting vertex and under reversal; a point outside the bounding box is never contained; for convex polygons an interior point is always contained and an exterior point never is.", "quantifier": "all polygons, all points", "why_tests_cant": "Continuum; arbitrary vertex lists.", "anchors": ["karta/vector/contains.pyx: contains, isleft", "karta/vector/geometry.py: Polygon.contains"]}
{"id": "C39", "title": "Holes are excluded from containment and area", "statement": "A point inside a sub-polygon is not contained in the polygon, and the area is the absolute shoelace area of the boundary minus the areas of the sub-polygons, recursively.", "quantifier": "all nested polygons", "why_tests_cant": "Recursion over arbitrary nesting.", "anchors": ["karta/vector/geometry.py: Polygon.contains, area"]}
{"id": "C40", "title": "Polygon area is a geometric invariant", "statement": "Planar area is unchanged by translation, by the choice of starting vertex and by reversal of vertex order, scales with the determinant of an affine map, and is non-negative without holes.", "quantifier": "all vertex lists", "why_tests_cant": "Sums over arbitrary length lists.", "anchors": ["karta/vector/geometry.py: Polygon.area"]}
{"id": "C41", "title": "Orientation test", "statement": "isclockwise is invariant under translation and choice of starting vertex and flips under reversal whenever the signed area is non-zero.", "quantifier": "all polygons", "why_tests_cant": "Sums over arbitrary lists.", "anchors": ["karta/vector/geometry.py: Polygon.isclockwise"]}
{"id": "C42", "title": "Centroid is affine-equivariant", "statement": "The polygon centroid moves with translation and scaling of the polygon and does not depend on starting vertex or direction.", "quantifier": "all polygons of non-zero signed area", "why_tests_cant": "Sums over arbitrary lists.", "anchors": ["karta/vector/geometry.py: Polygon.centroid"]}
{"id": "C43", "title": "Affine transforms compose and act per vertex", "statement": "apply_transform maps every vertex by the matrix, keeps their number and order, properties and third coordinate for 2-D matrices; applying M then N equals applying the product; shift by v then -v is the identity; rotation preserves distances.", "quantifier": "all geometries and matrices", "why_tests_cant": "All matrices and lists.", "anchors": ["karta/vector/geometry.py: Point.apply_transform, MultiVertexMixin.apply_transform, shift, Rotatable.rotate"]}
{"id": "C44", "title": "Nearest point on a segment", "statement": "The nearest point returned for a planar segment lies on the segment and no point of the segment is closer.", "quantifier": "all segments and points", "why_tests_cant": "Continuum.", "anchors": ["karta/vector/vectorgeo.pyx: pt_nearest_planar"]}
{"id": "C45", "title": "Shortest distance to a line or polygon boundary", "statement": "shortest_distance_to equals the minimum over all boundary segments of the distance to the segment, attained at nearest_on_boundary; within_distance(d) is true iff that minimum is at most d.", "quantifier": "all geometries and points", "why_tests_cant": "Minimum over arbitrary lists.", "anchors": ["karta/vector/geometry.py: ConnectedMultiVertexMixin._nearest_to_point, within_distance"]}
{"id": "C46", "title": "Convex hull encloses its input", "statement": "convex_hull returns a polygon whose vertices are input vertices, that turns consistently left, and that encloses every input vertex.", "quantifier": "all finite point sets", "why_tests_cant": "Arbitrary point sets with ties and collinearities.", "anchors": ["karta/vector/convexhull.pyx: convexhull"]}
{"id": "C47", "title": "Cached attributes equal recomputed ones", "statement": "A cached bbox/extent/length always equals the value recomputed from the current vertices and arguments.", "quantifier": "all histories of calls and mutations", "why_tests_cant": "Histories.", "anchors": ["karta/vector/decorators.py: cache_decorator", "karta/vector/geometry.py: Line.extend, Multipoint.__setitem__"]}
{"id": "C48", "title": "Longitude reduction", "statement": "reduce_deg maps any angle to the congruent angle in [-180,180) and unroll_deg to the one in [0,360); both are idempotent.", "quantifier": "all angles over exact arithmetic", "why_tests_cant": "Continuum.", "anchors": ["karta/geodesy.py: reduce_deg, unroll_deg"]}
{"id": "C49", "title": "Geodesic canonical configuration", "statement": "The canonicalisation step of the ellipsoidal inverse problem always produces a first latitude that is non-positive and largest in magnitude and a longitude difference in [0,180].", "quantifier": "all pairs of points", "why_tests_cant": "Continuum of sign cases.", "anchors": ["karta/geodesy.py: _canonical_configuration"]}
{"id": "C50", "title": "Dateline crossing", "statement": "crosses_dateline is antisymmetric in its endpoints and non-zero iff the signs differ and the longitudes differ by more than 180.", "quantifier": "all pairs of longitudes", "why_tests_cant": "Continuum.", "anchors": ["karta/vector/dateline.pyx: crosses_dateline", "karta/vector/geometry.py: ConnectedMultiVertexMixin.crosses_dateline"]}
{"id": "C51", "title": "Web-map tile lookup", "statement": "The tile returned for a point at a zoom level is the one whose bounding box contains the point; tiles at a level partition the map; the four children partition the parent.", "quantifier": "all zoom levels and points", "why_tests_cant": "Continuum and unbounded zoom.", "anchors": ["karta/tile.py: tile_from_point, Tile.bbox, Tile.nw_corner"]}
{"id": "C52", "title": "Root finder keeps a bracket", "statement": "The Brent solver, when it returns, returns a point inside the initial interval at which the function is zero or next to which, within tolerance, it changes sign.", "quantifier": "all functions and intervals with a sign change", "why_tests_cant": "All functions.", "anchors": ["karta/geodesy.py: fzero_brent"]}
{"id": "C53", "title": "Surface derivatives are exact on planes and blind to offsets", "statement": "gradient and slope of a planar surface equal the plane's gradient in the interior; adding a constant to the surface changes neither gradient nor divergence; both are linear.", "quantifier": "all grids, all planes", "why_tests_cant": "All coefficients and sizes.", "anchors": ["karta/raster/misc.py: _grad, _slope, _div"]}
{"id": "C54", "title": "Shapefile attribute names stay distinct", "statement": "Writing attributes to a shapefile gives every attribute a distinct column name of at most ten characters.", "quantifier": "all sets of attribute names", "why_tests_cant": "Unbounded sets of names with clashes.", "anchors": ["karta/vector/_shp.py: ogr_write"]}
{"id": "C55", "title": "GeoJSON properties are partitioned losslessly", "statement": "Reading a multipart feature assigns each property either to the per-part data (when it is a sequence with one entry per part) or to the geometry properties, never both, never dropped.", "quantifier": "all property dictionaries", "why_tests_cant": "All dictionaries.", "anchors": ["karta/vector/read.py: read_geojson, _geojson.py"]}
{"id": "C56", "title": "Property merge on multipart construction is an inner join", "statement": "Building a multipart geometry from parts with properties keeps exactly the keys common to all parts, with one value per part in order.", "quantifier": "all lists of dictionaries", "why_tests_cant": "All lists.", "anchors": ["karta/vector/geometry.py: merge_properties"]}
{"id": "C57", "title": "Multipart geometries have one attribute row per part", "statement": "However a Multipoint, Multiline or Multipolygon is built, its attribute table has exactly one row per part, with the given columns; columns of another length are refused.", "quantifier": "all numbers of parts, all data arguments, all lists of parts with properties", "why_tests_cant": "the constructors branch on the type of the first column and on which property keys happen to be shared; only a claim over all arguments covers the combinations", "anchors": ["karta/vector/geometry.py: Multipart.__init__, Multipoint.__init__, Multiline.__init__, Multipolygon.__init__", "karta/vector/table.py: Table.__init__, Table.updated"]}
{"id": "C58", "title": "Reading and assigning a part's attributes", "statement": "geometry[i] carries exactly the attribute row of part i overridden by the collection's own properties, and assigning a Point to multipoint[i] changes exactly row i, to the point's properties.", "quantifier": "all tables, indices, property dictionaries", "why_tests_cant": "depends on iteration order of a set of strings, which varies from run to run", "anchors": ["karta/vector/geometry.py: Multipoint.__getitem__, Multipoint.__setitem__", "karta/vector/table.py: Table.get"]}
{"id": "C59", "title": "Slicing a multipart geometry keeps attributes with their parts", "statement": "geometry[slice] has one part per selected index and part k carries the attributes of the k-th selected part.", "quantifier": "all tables, all selections", "why_tests_cant": "must hold for every number of attributes and rows", "anchors": ["karta/vector/geometry.py: Multipoint.__getitem__, Multiline.__getitem__, Multipolygon.__getitem__", "karta/vector/table.py: Table.get, Table.__init__"]}
{"id": "C60", "title": "Spatial queries agree with and without the index", "statement": "Multipoint.within_bbox and within_radius select exactly the points strictly inside the box / nearer than the radius, in increasing index order, whether or not the spatial index is built.", "quantifier": "all point lists, boxes, centres and radii (Cartesian distance), all leaf capacities", "why_tests_cant": "the index is a recursive structure whose shape depends on all points", "anchors": ["karta/vector/geometry.py: Multipoint.within_bbox, Multipoint.within_radius", "karta/vector/quadtree.h: qt_search_within, qt_insert, qt_split"]}
{"id": "C61", "title": "Cutting a polygon in two keeps containment and area consistent", "statement": "If the boundary of a polygon is cut along an arbitrary path between two of its vertices into two pieces that share that path, then a point contained in the whole is contained in at least one of the pieces, the signed areas of the pieces add to that of the whole and the winding counts add.", "quantifier": "every ring, every pair of cut vertices, every cutting path, every query point", "why_tests_cant": "Unit tests check a handful of polygons and points; the additivity must hold for every shape, cut and point, including self-crossing cuts.", "anchors": ["karta/vector/contains.pyx:contains", "karta/vector/geometry.py:Polygon.contains", "karta/vector/geometry.py:Polygon.area"]}
{"id": "C62", "title": "Points on the boundary of a polygon are contained", "statement": "Polygon.contains(point) is True for every point lying on the polygon's outer boundary, as documented for boundary points.", "quantifier": "every polygon and every point on one of its edges", "why_tests_cant": "Boundary points form a continuum; a test can only try a few and the answer depends on edge orientation.", "anchors": ["karta/vector/contains.pyx:contains", "karta/vector/geometry.py:Polygon.contains"]}
{"id": "C63", "title": "Moving a polygon keeps its holes", "statement": "Polygon.shift, rotate and apply_transform return a polygon whose holes are the transformed holes of the original, so a point in the image of a hole stays outside and the area scales by the determinant.", "quantifier": "every polygon with holes and every affine transformation", "why_tests_cant": "Whether holes survive must hold for every nesting of sub-polygons and every matrix.", "anchors": ["karta/vector/geometry.py:MultiVertexMixin.apply_transform", "karta/vector/geometry.py:MultiVertexMixin.shift", "karta/vector/geometry.py:Rotatable.rotate", "karta/vector/geometry.py:Polygon"]}
{"id": "C64", "title": "Cell corner coordinates are filled in for the whole grid", "statement": "vertex_coords returns, for every row 0..ny and column 0..nx of corners, the coordinates of the corner, so that the centre of each cell is the mean of its four corners.", "quantifier": "all grids and transforms, every corner", "why_tests_cant": "one row of the array is never written and its contents depend on the allocator; a test that happens to look at other rows, or at zeroed memory, passes", "anchors": ["karta/raster/grid.py: RegularGrid.vertex_coords"]}
{"id": "C65", "title": "Clipping to a box that reaches beyond the grid keeps coordinates", "statement": "Clipping to any box that meets the grid, including one reaching beyond it, keeps every retained pixel at its coordinates.", "quantifier": "all grids, all clip boxes that meet the grid", "why_tests_cant": "depends on which side and how far the box reaches beyond the grid; negative indices are silently reinterpreted", "anchors": ["karta/raster/grid.py: RegularGrid.clip"]}
{"id": "C66", "title": "Masking a grid by polygons keeps exactly the covered pixels", "statement": "mask_by_poly returns a grid of the same position, shape and no-data value in which each pixel whose centre is inside one of the polygons keeps its value in every band and each other pixel is no-data.", "quantifier": "all grids, numbers of bands, lists of polygons, vertex orders", "why_tests_cant": "The set of pixels kept depends on every vertex, on the orientation and on the transform; tests look at one mask.", "anchors": ["karta/raster/grid.py: RegularGrid.mask_by_poly, mask_poly"]}
{"id": "C67", "title": "ASCII export refuses what the format cannot represent", "statement": "to_aai raises GridError for every grid whose cells are not square or that is skewed, and writes all others.", "quantifier": "all transforms", "why_tests_cant": "Fixed fixtures cover a handful of shapes and transforms; the claim quantifies over every grid and every file.", "anchors": ["karta/raster/grid.py: RegularGrid.to_aai"]}
{"id": "C68", "title": "GeoTIFF export georeferences every pixel", "statement": "Every pixel of a grid written with to_geotiff is stored at a raster position whose ground coordinates, by the GDAL geotransform convention, are the coordinates of the cell's centre, and with the same value and nodata value.", "quantifier": "all transforms including skewed ones, all sizes, all numbers of bands", "why_tests_cant": "Fixed fixtures cover a handful of shapes and transforms; the claim quantifies over every grid and every file.", "anchors": ["karta/raster/_gdal.py: write", "karta/raster/grid.py: RegularGrid.to_geotiff"]}
{"id": "C69", "title": "GeoTIFF import georeferences every pixel", "statement": "Every pixel of a GeoTIFF is found by read_geotiff in a cell whose centre has the ground coordinates that the file's geotransform gives to the pixel.", "quantifier": "all geotransforms, sizes and numbers of bands", "why_tests_cant": "Fixed fixtures cover a handful of shapes and transforms; the claim quantifies over every grid and every file.", "anchors": ["karta/raster/read.py: read_geotiff", "karta/raster/_gdal.py: read"]}
{"id": "C70", "title": "Combining GeoTIFFs checks their georeference", "statement": "from_geotiffs raises an error unless all files have the same size and the same geotransform.", "quantifier": "all lists of files", "why_tests_cant": "Fixed fixtures cover a handful of shapes and transforms; the claim quantifies over every grid and every file.", "anchors": ["karta/raster/read.py: from_geotiffs"]}
{"id": "C71", "title": "GeoTIFF data types survive", "statement": "Writing a grid to GeoTIFF and reading it back preserves its data type.", "quantifier": "all numpy numeric types the library names", "why_tests_cant": "The claim concerns the composition of two tables; tests exercise two of the types.", "anchors": ["karta/raster/_gdal.py: gdal_type, numpy_dtype"]}
{"id": "C72", "title": "R-tree bounding box", "statement": "RTree.bbox is the smallest box containing the bounding boxes of all the indexed geometries.", "quantifier": "all lists of geometries", "why_tests_cant": "The box is maintained incrementally along every insertion history.", "anchors": ["karta/vector/rtree.pyx: RTree.bbox", "karta/vector/rtree.h: rt_insert, rt_adjust_tree"]}
{"id": "C73", "title": "R-tree construction and searches always finish", "statement": "Building an RTree from any list of geometries succeeds and every search in it terminates.", "quantifier": "all lists of geometries, all capacities, all queries", "why_tests_cant": "Depends on pointer structure after arbitrary sequences of node divisions.", "anchors": ["karta/vector/rtree.h: rt_insert, rt_choose_leaf, rt_adjust_tree, rt_split_leaf, rt_split_nonleaf, rt_search_within, rt_search_overlapping", "karta/vector/pool.h: pool_pop"]}
{"id": "C74", "title": "Polar rings are recognised", "statement": "A ring on geographic coordinates is reported to circle a pole exactly when the longitude it sweeps, each step taken the short way round, adds up to a full turn.", "quantifier": "all rings of longitudes", "why_tests_cant": "All rings, including those that cross the dateline any number of times.", "anchors": ["karta/vector/geometry.py: Polygon.ispolar", "karta/geodesy.py: unroll_deg"]}
{"id": "C75", "title": "Azimuth-range test is an arc test", "statement": "An angle is reported to lie between two others exactly when it lies on the shorter arc from one to the other.", "quantifier": "all triples of angles", "why_tests_cant": "All angles and all wraps.", "anchors": ["karta/geodesy.py: isbetween_circular"]}
{"id": "C76", "title": "Geographic bounding box covers every vertex longitude", "statement": "The longitude range of the bounding box of a line or polygon on geographic coordinates contains the longitude of every vertex, read eastward from the western limit.", "quantifier": "all sequences of longitudes, with any number of dateline crossings", "why_tests_cant": "All sequences.", "anchors": ["karta/vector/dateline.pyx: bbox", "karta/vector/geometry.py: MultiVertexMixin.bbox"]}
{"id": "C77", "title": "Distance along the equator is the short way", "statement": "For two points on the equator of an ellipsoid the inverse problem gives the length of the shorter arc, and a forward step of that length along the returned azimuth ends at the second point.", "quantifier": "all pairs of longitudes", "why_tests_cant": "All longitudes, including those more than half a turn apart.", "anchors": ["karta/geodesy.py: _ellipsoidal_inverse_equatorial"]}
{"id": "C78", "title": "Surface derivatives never invent values from missing data", "statement": "A gradient, slope or divergence pixel is missing exactly when it lies on the border or one of the pixels it is computed from is missing (NaN or the grid's nodata value).", "quantifier": "all grids, bands and nodata values", "why_tests_cant": "All positions of missing data and all nodata values.", "anchors": ["karta/raster/misc.py: gradient, divergence, _grad, _div", "karta/raster/grid.py: RegularGrid.data_mask"]}
{"id": "C79", "title": "Surface grids match their source", "statement": "Slope, gradient and aspect grids have the size and georeferencing of the grid they are computed from, and slopes are never negative.", "quantifier": "all grids of all sizes", "why_tests_cant": "All sizes, including the smallest, and the extrapolated border.", "anchors": ["karta/raster/misc.py: slope, gradient, aspect, _slope"]}
{"id": "C80", "title": "Aspect is the downhill direction", "statement": "The aspect of an interior pixel is the direction of steepest descent of the surface there.", "quantifier": "all surfaces", "why_tests_cant": "All directions.", "anchors": ["karta/raster/misc.py: _aspect"]}
{"id": "C81", "title": "Normalised vectors are at most one long", "statement": "The vectors returned by normed_potential_vectors are nowhere longer than one, and reach one unless the surface is flat.", "quantifier": "all grids with any pattern of missing values", "why_tests_cant": "All patterns of missing values.", "anchors": ["karta/raster/misc.py: _normed_potential_vectors"]}
{"id": "C82", "title": "Shapefile rows hold each feature's own attributes", "statement": "Every attribute shared by all the features written, with a value that can be stored, has exactly one column, and each feature's row holds the feature's own value in it.", "quantifier": "all lists of features with any properties, in any iteration order of the keys", "why_tests_cant": "All property sets, orders and clashes.", "anchors": ["karta/vector/_shp.py: ogr_write, infer_field_type, ogr_write_feature"]}
{"id": "C83", "title": "Searches see the current members of a Multipoint", "statement": "After any sequence of assignments to members of a Multipoint, within_bbox selects exactly the members whose current position is strictly inside the box.", "quantifier": "all vertex lists, all histories of member assignments, all boxes", "why_tests_cant": "Histories; the result depends on whether the spatial index was built before or after the mutation.", "anchors": ["karta/vector/geometry.py: Multipoint.__setitem__, Multipoint.within_bbox", "karta/vector/quadtree.pyx: QuadTree"]}
{"id": "C84", "title": "Planar forward and inverse geodesic problems undo each other", "statement": "For a planar coordinate system, travelling the distance that inverse reports in the direction that it reports leads exactly to the second point with the reported back azimuth; conversely after forward with a positive distance, inverse reports that distance, that direction up to full turns, and the same back azimuth. Distances are symmetric, azimuths count clockwise from north.", "quantifier": "all pairs of points, all azimuths and positive distances, degrees and radians", "why_tests_cant": "Ranges over a continuum of positions and directions, including coincident points and all quadrants.", "anchors": ["karta/crs.py: CartesianCRS.forward, CartesianCRS.inverse", "karta/geodesy.py: plane_distance, plane_azimuth, unroll_rad"]}
{"id": "C85", "title": "Point.walk and Point.azimuth agree", "statement": "Walking from a point the distance to another point in the direction of its azimuth leads to that point; after a walk of positive length the distance is that length and the azimuth is the direction walked, reduced to [-180, 180). The azimuth is defined exactly for points at different places.", "quantifier": "all pairs of points, all directions and positive distances, planar and geographical systems", "why_tests_cant": "Ranges over all positions and directions; the failing meridian is a measure-zero set in random tests.", "anchors": ["karta/vector/geometry.py: Point.azimuth, Point.walk, Point.distance"]}
{"id": "C86", "title": "Point.distance is a metric", "statement": "The distance between points is zero exactly for equal positions, symmetric, and satisfies the triangle inequality.", "quantifier": "all triples of points of one planar system, with two or three coordinates", "why_tests_cant": "An inequality over all triples of points.", "anchors": ["karta/vector/geometry.py: Point.distance"]}
{"id": "C87", "title": "Distances on the sphere are great-circle distances", "statement": "The distance that a spherical coordinate system reports between two positions is the radius times the angle between their directions from the centre, whichever formula is selected; it is a metric on positions.", "quantifier": "all pairs and triples of positions", "why_tests_cant": "Two formulas with a switch between them; must agree and satisfy an inequality over all triples.", "anchors": ["karta/geodesy.py: sphere_distance", "karta/vector/vectorgeo.pyx: dist_sph"]}
{"id": "C88", "title": "Conversion between spherical and Cartesian coordinates is faithful", "statement": "Converting a position to a unit vector and back gives the same longitude and latitude, and the position computed for any vector lies in its direction.", "quantifier": "all positions, all non-zero vectors", "why_tests_cant": "Ranges over the whole sphere with special cases at poles, equator and the meridians 90 and -90.", "anchors": ["karta/geodesy.py: sph2cart, cart2sph", "karta/vector/vectorgeo.pyx: sph2cart, cart2sph"]}
{"id": "C89", "title": "A reported crossing of two great-circle segments is on both", "statement": "When two segments on the sphere are reported to cross, the reported position has a latitude between -90 and 90 and lies on both great circles, between the ends of both segments.", "quantifier": "all pairs of segments given by longitudes and latitudes", "why_tests_cant": "Ranges over all pairs of arcs, hemispheres and orders of the arguments.", "anchors": ["karta/geodesy.py: intersection_spherical, eulerpole, check_in_segment_range, isbetween_circular"]}
{"id": "C90", "title": "All crossings of two geographical lines are reported", "statement": "The intersections of two lines in a geographical coordinate system are the crossing positions of those pairs of segments that cross.", "quantifier": "all pairs of lines", "why_tests_cant": "Depends on which of the pairs of segments cross; all combinations.", "anchors": ["karta/vector/geometry.py: MultiVertexMixin.intersections", "karta/geodesy.py: intersection_spherical"]}
{"id": "C91", "title": "Cumulative lengths of a line", "statement": "cumulength returns one number for each vertex, the length of the line up to it; the numbers start at zero, never decrease and end with the length of the line. The displacement is never more than the length.", "quantifier": "all lines in a planar system", "why_tests_cant": "Unbounded number of vertices; an inequality over all of them.", "anchors": ["karta/vector/geometry.py: Line.cumulength, Line.displacement"]}
{"id": "C92", "title": "to_npoints returns n equally spaced points", "statement": "For n of at least 2, to_npoints(n) returns exactly n points on the line, at equal distances measured along the line, from its first to its last vertex.", "quantifier": "all lines in a planar system and all n of at least 2", "why_tests_cant": "The number and lengths of segments and the number of points vary independently; a loop invariant is needed.", "anchors": ["karta/vector/geometry.py: Line.to_npoints"]}
{"id": "C93", "title": "to_points returns points at the requested spacing", "statement": "For a positive spacing, to_points(dx) returns the positions on the line at lengths 0, dx, 2 dx, ... measured along the line, as many as the line is long.", "quantifier": "all lines in a planar system and all positive spacings", "why_tests_cant": "The remainder carried from segment to segment depends on all earlier segments.", "anchors": ["karta/vector/geometry.py: Line.to_points"]}
{"id": "C94", "title": "The forward geodesic problem is solved exactly where it can be", "statement": "On a sphere, travelling in a direction for a distance leads to the position on the great circle at that angular distance; the back azimuth leads back to the start; the great-circle distance between start and destination is the distance travelled. On any ellipsoid, travelling along the equator changes the longitude by distance over equatorial radius.", "quantifier": "all starting positions off the poles, all azimuths and distances", "why_tests_cant": "A continuum of positions and directions with several special directions.", "anchors": ["karta/geodesy.py: ellipsoidal_forward, _solve_NEA"]}
{"id": "C95", "title": "The spherical inverse solver returns a real great circle", "statement": "On a sphere, the solver for two points given by longitude difference and latitudes returns an azimuth, an arrival azimuth and a distance such that going that distance from the first point in that direction arrives at the second point, the distance lies between 0 and half the circumference, and the direction of travel on arrival is the arrival azimuth (unless the points coincide or are opposite).", "quantifier": "every radius, every longitude difference and every pair of latitudes other than the poles", "why_tests_cant": "The formulas mix sines, cosines and a two-argument arctangent with four quadrants; tests look at a few pairs of cities.", "anchors": ["karta/geodesy.py: solve_vincenty"]}
{"id": "C96", "title": "Areas of polygons on a sphere are true areas", "statement": "The area of a geographical polygon on a sphere is the area of the region that its great-circle sides enclose, less the areas of its sub-polygons, whatever the ring.", "quantifier": "every radius, every polygon with any number of vertices and nested sub-polygons", "why_tests_cant": "The area of a region with curved sides is an integral; a test can compare a handful of polygons with published numbers only.", "anchors": ["karta/geodesy.py: spherical_area, _canonical_configuration, solve_vincenty", "karta/vector/geometry.py: Polygon.area, segment_tuples"]}
{"id": "C97", "title": "The inverse geodesic problem is solved on every sphere", "statement": "For two points on a sphere the inverse solver returns azimuth, back azimuth and distance such that each azimuth leads along a great circle to the other point in that distance, the distance is the shortest one, and the azimuths lie in [-180, 180).", "quantifier": "every sphere, every pair of points that are not poles, every positive or zero tolerance", "why_tests_cant": "Infinitely many pairs of points; the code permutes, mirrors and iterates, and fails only in a thin band of latitudes that no sample is likely to hit.", "anchors": ["karta/geodesy.py: ellipsoidal_inverse, _canonical_configuration, _solve_NEB, _solve_astroid, _refine_longitudinal_error"]}
{"id": "C98", "title": "Containment changes only at the boundary", "statement": "Two points that can be joined by a straight segment meeting no side of a polygon or of its sub-polygons are both contained or both not contained. Going to the left of everything always arrives outside. Crossing exactly one side of a ring away from vertices changes the winding count by one, so a point count of zero becomes non-zero.", "quantifier": "every ring and every polygon with any depth of sub-polygons, convex or not, self-crossing or not, and every pair of points", "why_tests_cant": "Containment is a statement about a whole region; tests sample points and mostly convex shapes.", "anchors": ["karta/vector/geometry.py: Polygon.contains", "karta/vector/contains.pyx: contains, isleft"]}
{"id": "C99", "title": "within returns exactly the parts inside a polygon", "statement": "Asking a multi-line or multi-polygon for its parts within a polygon returns, each once, exactly those parts that lie in the polygon with all their points and do not touch its boundary.", "quantifier": "every number of parts, every polygon with any sub-polygons, every part with any number of vertices", "why_tests_cant": "The answer is about infinitely many points per part and depends on an index, a winding test of one vertex and a sweep.", "anchors": ["karta/vector/geometry.py: MultiVertexMultipartMixin.within", "karta/vector/rtree.pyx: RTree.search_overlapping"]}
{"id": "C100", "title": "touching returns exactly the parts that touch a line or polygon", "statement": "Asking a multi-line or multi-polygon for its parts touching a line returns, each once, exactly the parts with a point on the line; for a polygon exactly those with a point in the polygon or on its boundary.", "quantifier": "every number of parts, every line and every polygon with any sub-polygons", "why_tests_cant": "As for C99.", "anchors": ["karta/vector/geometry.py: MultiVertexMultipartMixin.touching, touching_bbox", "karta/vector/rtree.pyx: RTree.search_overlapping"]}
{"id": "C101", "title": "merge keeps all parts in order with their attributes", "statement": "Merging points, lines or polygons with collections of them returns the parts of all arguments in order, cut to the smallest number of coordinates among them, and exactly those attribute fields that every argument has, each with its own values.", "quantifier": "every list of geometries and collections, any numbers of parts, vertices and fields", "why_tests_cant": "The result depends on the ranks and fields of all arguments together; tests merge a few with the same rank.", "anchors": ["karta/vector/geometry.py: Multipoint.merge, Multiline.merge, Multipolygon.merge"]}
{"id": "C102", "title": "affine_matrix finds the transformation that fits best", "statement": "For two collections of as many plane points each, the returned matrix has the least sum of squared distances between the transformed first points and the second points among all affine matrices. If three points are not on a line it is the only one, and if the second points are an affine image of the first the matrix is that transformation, so that apply_transform moves the first exactly onto the second. Collections of different sizes and points with three coordinates are refused.", "quantifier": "all point collections and all affine matrices to compare with", "why_tests_cant": "Optimality compares with infinitely many matrices.", "anchors": ["karta/vector/geometry.py: affine_matrix"]}
{"id": "C103", "title": "The nearest point on a geodesic segment is found within the tolerance", "statement": "Searching the point of a geodesic segment nearest to a given point returns a point of the segment whose position along it differs from the nearest one by no more than the tolerance, and its distance. If the tolerance is not reached in the allowed number of steps an error is raised; the default settings always suffice.", "quantifier": "every geodesic, point, tolerance and iteration limit for which the distance falls and then rises along the segment", "why_tests_cant": "The claim compares with every position along the segment and with every step count.", "anchors": ["karta/vector/vectorgeo.pyx: pt_nearest_proj"]}
{"id": "C104", "title": "Bounding latitudes contain the whole great-circle path", "statement": "The latitudes of the bounding box of a line or polygon with geographical coordinates contain the latitude of every point on the great-circle arcs between the vertices, and both are reached on the geometry.", "quantifier": "every list of vertices, open or closed, and every point of every arc", "why_tests_cant": "Arcs bulge polewards between vertices; infinitely many points are bounded, and the peak is computed from azimuths with a case distinction by hemisphere and direction.", "anchors": ["karta/vector/vectorgeo.pyx: bndlat_sph", "karta/vector/dateline.pyx: bbox"]}
{"id": "C105", "title": "A geometry survives the geo interface", "statement": "from_shape applied to a geometry of karta gives a geometry with the same vertices, rings, holes, properties, attribute table and coordinate system.", "quantifier": "every point, line, polygon with any holes and every collection of them, with any attributes", "why_tests_cant": "Rings are closed on output and opened on input in different places for each class, and each class writes its own properties; tests look at single classes and compare vertices only.", "anchors": ["karta/vector/geometry.py: __geo_interface__, geomdict, vertices_ring", "karta/vector/read.py: from_shape, _from_shape"]}
{"id": "C106", "title": "A geometry survives writing and reading GeoJSON", "statement": "A geometry in WGS84 written by as_geojson and read by read_geojson has the same vertices, rings up to direction, holes, properties and attribute fields with the same values.", "quantifier": "every point, line, polygon and collection with any properties and any attribute table with a row for each part", "why_tests_cant": "Attributes and properties share one dictionary in the file and are told apart by their lengths when read; rings are closed by one function and opened by another.", "anchors": ["karta/vector/_geojson.py: GeoJSONOutMixin._as_named_tuple, as_geojson", "karta/vector/read.py: read_geojson, convert_geometry, convert_feature"]}
{"id": "C107", "title": "Exporting a geometry leaves it unchanged", "statement": "as_geojson changes nothing in the geometry: its vertices, properties and attribute table and the attributes of its parts are the same before and after.", "quantifier": "every geometry, coordinate system and choice of arguments", "why_tests_cant": "Tests inspect the string that is returned, not every part of the geometry afterwards.", "anchors": ["karta/vector/_geojson.py: GeoJSONOutMixin._as_named_tuple, as_geojson", "karta/vector/geometry.py: Multipart.__getitem__"]}
{"id": "C108", "title": "A GPX document survives writing and reading", "statement": "A GPX document that is written and read again has the same waypoints, tracks, segments, routes and points in the same order, coordinates rounded to six decimals, and the same properties and extensions as text; read_gpx_tracks gives a line through the points of each segment.", "quantifier": "every document with any numbers of waypoints, tracks, segments, routes and points and any properties", "why_tests_cant": "The claim ranges over nested documents with arbitrary dictionaries; the tests compare the number of tracks in one file.", "anchors": ["karta/vector/_gpx.py: GPX.as_string, GPX.fromfile, _readproperties, _readextensions, parse_wpt, parse_trk, parse_rte", "karta/vector/read.py: read_gpx_tracks"]}
{"id": "C109", "title": "Geometries added to a GPX document keep their vertices and attributes", "statement": "add_waypoint, add_track and add_route add one entry at the end with a point for each vertex in order, the attributes of each vertex under properties or extensions according to whether GPX knows them, the heights of vertices with three coordinates, and the properties of the geometry as text; nothing else in the document changes.", "quantifier": "every document, every geometry with any number of vertices and attribute table with a row for each vertex", "why_tests_cant": "The result depends on which fields are present and on the order in which a set is iterated.", "anchors": ["karta/vector/_gpx.py: GPX.add_waypoint, add_track, add_route"]}
{"id": "C110", "title": "Resampling covers the grid at the requested spacing with values of the nearest cells", "statement": "resample(dx, dy, method=\"nearest\") gives a grid with spacing dx by dy whose first centre is the lower left of the original centres, with as many rows and columns as fit inside the original centres, where each cell holds the value of the original cell that contains its centre; a spacing that is not positive and an unknown method are refused.", "quantifier": "every grid, spacing and method", "why_tests_cant": "The number of rows and columns depends on how the spacing divides the extent; tests resample one grid by one factor.", "anchors": ["karta/raster/grid.py: RegularGrid.resample, RegularGrid.sample, _resample_like"]}
{"id": "C111", "title": "Resampling at the own spacing keeps the values", "statement": "Resampling a grid without skew to the size of its own cells by nearest neighbour gives a grid of the same shape whose cells hold the values at the same positions.", "quantifier": "every single-band grid without skew, with rows and columns running in either direction", "why_tests_cant": "Off-by-one errors in the count or half-cell offsets would only show for some signs and sizes.", "anchors": ["karta/raster/grid.py: RegularGrid.resample"]}
{"id": "C112", "title": "Linear resampling interpolates between the surrounding centres", "statement": "resample(dx, dy, method=\"linear\") gives, at every cell whose centre lies among the original centres, the bilinear interpolation of the four surrounding cells.", "quantifier": "every single-band grid without skew and every spacing", "why_tests_cant": "Tests resample one grid by one factor and compare with stored numbers.", "anchors": ["karta/raster/grid.py: RegularGrid.resample, RegularGrid.sample_bilinear"]}
{"id": "C113", "title": "Adding and subtracting grids is cell by cell", "statement": "g + h and g - h of grids with the same transform and size hold the sum and difference of the cells in each band, with the transform and nodata value of g; grids that differ are refused; (g - h) + h has the cells of g.", "quantifier": "every pair of grids with any number of bands", "why_tests_cant": "Tests add one pair of grids.", "anchors": ["karta/raster/grid.py: RegularGrid.__add__, RegularGrid.__sub__"]}
{"id": "C114", "title": "The data extent is the smallest box around the cells with data", "statement": "data_extent and data_bbox return the smallest box that contains every centre (or every cell) that holds data.", "quantifier": "every grid, layout of missing cells and nodata value", "why_tests_cant": "The result depends on where the data lie, on the anchor and on the direction of the rows; the tests use one mask.", "anchors": ["karta/raster/grid.py: RegularGrid.data_extent, data_bbox"]}
{"id": "C115", "title": "max, min and minmax return the extreme data values", "statement": "max, min and minmax return the largest and smallest values among the cells that hold data, and NaN when there are none.", "quantifier": "every grid with any number of bands and any layout of missing cells", "why_tests_cant": "The layouts in which bands disagree about missing cells are not tested.", "anchors": ["karta/raster/grid.py: RegularGrid.max, min, minmax, data_mask"]}
{"id": "C116", "title": "Aligning the origin moves the grid by at most half a step", "statement": "_align_origin(x, y) gives a grid of the same shape whose anchor is a multiple of (x, y), moved by at most half a step, whose cells hold the value of the cell that contains their centre, and nodata outside.", "quantifier": "every grid and steps of either sign", "why_tests_cant": "The outcome depends on rounding of the anchor; the tests use one grid.", "anchors": ["karta/raster/grid.py: RegularGrid._align_origin"]}
{"id": "C117", "title": "Geometries are equal exactly when they look the same", "statement": "a == b is true exactly when the two geometries are of one type, have the same vertices and holes, the same properties and data, and coordinate systems that compare equal. Comparing is reflexive, symmetric and transitive and never raises.", "quantifier": "all pairs and triples of points, lines, polygons and multipoints", "why_tests_cant": "Tests compare a few pairs; the exceptions lie in combinations of types, ranks, holes and coordinate systems.", "anchors": ["karta/vector/geometry.py: Point.__eq__, MultiVertexBase.__eq__, Multipart.__eq__", "karta/crs.py: CRS.__eq__"]}
{"id": "C118", "title": "Equal geometries have equal hashes", "statement": "If a == b, then hash(a) == hash(b), so that equal geometries are found in sets and dictionaries.", "quantifier": "all pairs of points, lines, polygons and multipoints and any hash of strings and bytes", "why_tests_cant": "The law relates all pairs of equal objects; tests hash a few objects.", "anchors": ["karta/vector/geometry.py: Point.__hash__, MultiVertexBase.__hash__", "karta/crs.py: CRS.__eq__"]}
{"id": "C119", "title": "Indexing, slicing and iterating follow Python's rules for sequences", "statement": "g[i] is the point at vertex i (from the end when negative) and raises IndexError outside; g[a:b:c] is a geometry through the vertices that the slice picks, in that order; iterating gives the points of all vertices in order. Properties and coordinate system are kept. A slice of a polygon that picks all its vertices is a polygon with its holes, any other a line.", "quantifier": "all lines and polygons, integers and slices with any sign", "why_tests_cant": "Slices have many combinations of absent, negative and excessive bounds and negative steps.", "anchors": ["karta/vector/geometry.py: MultiVertexBase.__getitem__, Polygon.__getitem__, __iter__", "karta/vector/coordstring.pyx: slice, __getitem__"]}
{"id": "C120", "title": "Points, lines and polygons can be converted into one another", "statement": "A line, polygon or multipoint made from points passes through the positions of those points, in the coordinate system asked for or that of the first point; to_line gives the closed boundary; polygon.to_line().to_polygon() is the polygon again.", "quantifier": "all lists of points in any coordinate systems, all polygons", "why_tests_cant": "The statement ranges over all mixtures of coordinate systems and ring lengths.", "anchors": ["karta/vector/geometry.py: Line.__init__, Polygon.__init__, Multipoint.__init__, Line.to_polygon, Polygon.to_line"]}
{"id": "C121", "title": "Vertex queries return the first of the nearest vertices and find any vertex in reach", "statement": "nearest_vertex_to returns the first of the vertices at the smallest distance; any_within_poly is true exactly when some vertex is inside the polygon.", "quantifier": "all geometries with vertices and any distance function", "why_tests_cant": "Ties and the position of the nearest vertex vary without bound.", "anchors": ["karta/vector/geometry.py: MultiVertexBase.nearest_vertex_to, distances_to, any_within_poly"]}
{"id": "C122", "title": "Which geometries share attributes is determined by how they were made", "statement": "Setting a property or attribute through one geometry is seen by exactly those geometries of its family: geometries derived from one another by shifting, slicing, indexing or converting share one properties dictionary, except items of a collection; a shifted multipoint and its original, and collections made with one table, share their data. Making a geometry changes no other.", "quantifier": "all histories of constructors, derivations and assignments, and all pairs of geometries in them", "why_tests_cant": "Aliasing shows only after a particular sequence of derivations and assignments, of which there are infinitely many.", "anchors": ["karta/vector/geometry.py: Geometry.__init__, Multipart.__init__, apply_transform, __getitem__, _subset, to_line, to_polygon", "karta/vector/table.py: Table.__init__, setfield"]}
{"id": "C123", "title": "Moving a collection keeps its attributes", "statement": "shift, rotate and apply_transform of a collection return a collection with the same data columns and the same properties.", "quantifier": "all collections of lines or polygons with any table and properties", "why_tests_cant": "The outcome depends on names shared between columns and properties, and on the iteration order of sets.", "anchors": ["karta/vector/geometry.py: Multipart.apply_transform, Multiline.__init__, Multipolygon.__init__, merge_properties", "karta/vector/table.py: Table.updated"]}
{"id": "C124", "title": "A coordinate system has the ellipsoid its definition names", "statement": "The ellipsoid taken from a PROJ string is the one named by +ellps, else that of the datum named by +datum, else the one with the axes +a and +b or the flattening +f, whatever the order of parameters and whatever else the string says; its axes and flattening are consistent; a string that names none is refused. A geographical system made from WKT has the ellipsoid and the datum of the definition.", "quantifier": "all strings of parameters in any order and all ellipsoids and datums of the tables", "why_tests_cant": "Tests try a few strings; the statement ranges over all strings and orders of parameters.", "anchors": ["karta/crs.py: parse_ellipsoid, Ellipsoid, ELLIPSOID_DATA, DATUM_ELLIPSOIDS, crs_from_wkt, GeographicalCRS.__init__"]}
{"id": "C125", "title": "A shapefile gives back the geometries written to it", "statement": "read_shapefile of a file written with write_shapefile or to_shapefile returns the same geometries in the same order, each with its own attributes: points, lines and parts with the same vertices, polygons with the same rings and holes.", "quantifier": "all lists of geometries of any size, dimension and type, and any behaviour of OGR that keeps positions and closed rings", "why_tests_cant": "The statement ranges over all lists and shapes, and the writer ignores what OGR refuses, which a test on a few files does not show.", "anchors": ["karta/vector/_shp.py: ogr_write, ogr_write_feature, ogr_asPoint, ogr_asLineString, ogr_asPolygon, ogr_asMultiPoint, ogr_asMultiLineString, ogr_asMultiPolygon, ogr_read_geometry, ogr_read_geometries", "karta/vector/read.py: ogr_read_shapefile, _from_shape"]}
{"id": "C126", "title": "A shapefile gives back the attributes written to it", "statement": "Every feature read has its number as id and, under the name of each column, its own value of the attribute the column stands for; missing values come back as None.", "quantifier": "all lists of features with any attributes", "why_tests_cant": "Values, types and missing values combine without bound.", "anchors": ["karta/vector/_shp.py: ogr_write_feature, ogr_read_attributes, ogr_get_fieldtype, FIELDTYPES"]}
{"id": "C127", "title": "A shapefile keeps the coordinate system", "statement": "The definition of the coordinate system is written so that OSR understands it, and the system read has the ellipsoid, datum and projection of the file.", "quantifier": "all PROJ strings and all systems in files", "why_tests_cant": "The text is rewritten by replacing substrings, which can hit any part of any string.", "anchors": ["karta/vector/_shp.py: ogr_write", "karta/vector/read.py: ogr_parse_srs", "karta/crs.py: GeographicalCRS.__init__, parse_ellipsoid"]}
{"id": "C128", "title": "A table is a list of records under every history of changes", "statement": "After any sequence of setfield, extend, row assignments and row deletions that make sense when they are made, a table has the length of the list of records to which the same changes were made, and every query by name, by number (also negative), by slice or through the d attribute gives the answer of that list. Columns of another length and rows that do not exist are refused.", "quantifier": "all tables, all histories of changes and all queries", "why_tests_cant": "Histories are unbounded and mix changes of columns and rows, which tests do not combine.", "anchors": ["karta/vector/table.py: Table.setfield, Table.extend, Table.__setitem__, Table.__delitem__, Table.__getitem__, Table.get, Table.getfield, Indexer.__getitem__", "karta/vector/geometry.py: Multipart.d"]}
{"id": "C129", "title": "checktypes accepts exactly uniform data", "statement": "Table(data, checktypes=True) accepts data in which all values of each field have one type and raises TypeError otherwise.", "quantifier": "all tables", "why_tests_cant": "The statement ranges over all tables; no test uses the option.", "anchors": ["karta/vector/table.py: Table.__init__, Table._validatetypes, Table.types"]}
{"id": "C130", "title": "sample looks up the positions it is given, in any coordinate system", "statement": "sample(point), sample(multipoint) and sample(x, y) return the values of the grid at the positions given, converted from the system of the geometry (or the crs argument, by default that of the grid) to that of the grid; the values come in the order of the positions. Other geometries, a lone argument, coordinates of different length and unknown methods are refused. With the nearest method the value of a point is that of the cell that contains it, or nodata outside of the grid.", "quantifier": "all grids, positions, coordinate systems, methods and ways to call sample", "why_tests_cant": "Systems, ways to give positions and methods combine freely, and positions are unbounded.", "anchors": ["karta/raster/grid.py: RegularGrid.sample, RegularGrid.sample_nearest", "karta/vector/geometry.py: Point.vertex, MultiVertexMixin.coords", "karta/vector/utilities.py: _reproject"]}
{"id": "C131", "title": "A profile samples the grid along the line at the requested spacing", "statement": "profile(line, resolution) returns the points at distances 0, d, 2d, ... along the line (d is the resolution, by default the smaller cell size), as many as fit on the line, with the values sampled at these points; the data of the points has one column band_0, band_1, ... per band with these values.", "quantifier": "all grids, lines with segments longer than the spacing and resolutions", "why_tests_cant": "The number of points depends on the length of the line and of its segments, which are unbounded real numbers.", "anchors": ["karta/raster/grid.py: RegularGrid.profile", "karta/vector/geometry.py: Line.to_points", "karta/vector/table.py: Table.setfield"]}
{"id": "C132", "title": "A quadtree gives back all its memory", "statement": "Building the index of a multipoint and dropping it never reads, writes or frees memory that is not allocated, never writes past the end of an array, and leaves exactly the memory allocated that was allocated before. This holds for all points, also repeated ones, and also if a coordinate that is not a number makes the construction fail.", "quantifier": "all multipoints, leaf capacities of at least two and states of the heap", "why_tests_cant": "Splits nest to any depth and happen at any point of the construction; tests see neither leaks nor accesses to freed memory.", "anchors": ["karta/vector/quadtree.h: qt_split, qt_insert, qt_free_node, qt_new_leaf, qt_new_nonleaf, qt_new_bbox, qt_new_position", "karta/vector/quadtree.pyx: QuadTree.__cinit__, QuadTree.__dealloc__"]}
{"id": "C133", "title": "Searching a quadtree uses memory safely and gives it back", "statement": "Any number of searches on an index give the right answers, never touch memory that is not allocated, never overrun their buffers, and leave the allocated memory as it was.", "quantifier": "all indexes, sequences of queries and states of the heap", "why_tests_cant": "The buffers of a search grow with the number of nodes and results, which are unbounded.", "anchors": ["karta/vector/quadtree.h: qt_search_within", "karta/vector/pool.h: pool_new, pool_add, pool_resize, pool_pop, pool_destroy", "karta/vector/quadtree.pyx: QuadTree.search_within"]}
{"id": "C134", "title": "An R-tree gives back all its memory", "statement": "Building the index of a list of geometries and dropping it frees all memory allocated for it, once, also if the construction fails because an item has no bounding box.", "quantifier": "all lists of geometries and node capacities", "why_tests_cant": "Leaks and double frees cannot be observed by tests of results; they depend on the shape of the tree.", "anchors": ["karta/vector/rtree.h: rt_free, rt_new_node, rt_new_bbox", "karta/vector/rtree.pyx: RTree.__init__, RTree.__dealloc__"]}
{"id": "C135", "title": "Searching an R-tree uses memory safely and gives it back", "statement": "A search on an R-tree never overruns its buffers or uses them after they were freed, and leaves the allocated memory as it was.", "quantifier": "all indexes, queries, limits on the number of results and states of the heap", "why_tests_cant": "The buffers grow with the number of nodes and results, which are unbounded.", "anchors": ["karta/vector/rtree.h: rt_search_within, rt_search_overlapping", "karta/vector/pool.h: pool_new, pool_add, pool_resize, pool_pop, pool_destroy", "karta/vector/rtree.pyx: RTree.search_within, RTree.search_overlapping"]}
{"id": "C136", "title": "A polygon around a pole contains the points it goes around", "statement": "For a polygon whose ring goes around a pole, contains(point) is True exactly when the ring goes around the point, whatever the direction of the ring.", "quantifier": "all rings, points and azimuths between them", "why_tests_cant": "The answer depends on the sequence of azimuths to all vertices, of which there are unboundedly many shapes; tests use one polygon around one pole.", "anchors": ["karta/vector/geometry.py: Polygon.contains", "karta/vector/contains.pyx: contains_proj"]}
{"id": "C137", "title": "Two great-circle segments are found to cross exactly when they do", "statement": "In a geographical system, two segments are found to intersect exactly when the great-circle arcs between their ends have a point in common; a computed intersection lies on both arcs.", "quantifier": "all pairs of segments on the sphere", "why_tests_cant": "Tests use a few segments; the decision depends on signs of products of sines and cosines for every position of the four ends.", "anchors": ["karta/vector/intersection.pyx: _intersects_sph, intersection_sph, intersection_meridian", "karta/vector/vectorgeo.pyx: cross3, eulerpole, sph2cart, cart2sph"]}
{"id": "C138", "title": "Two lines in geographical coordinates are found to meet exactly when they do", "statement": "In a geographical system, Line.intersects(other) is True exactly when some segment of one line has a point in common with some segment of the other.", "quantifier": "all pairs of lines on the sphere with any number of segments", "why_tests_cant": "The sweep over the segments keeps an ordered list whose order depends on all segments seen before; tests use a few short lines.", "anchors": ["karta/vector/intersection.pyx: intersects_sph, SweepLinePlaceholder, EventQueuePlaceholder", "karta/vector/geometry.py: ConnectedMultiVertexMixin.intersects"]}
{"id": "C139", "title": "The convex hull in geographical coordinates encloses every vertex", "statement": "In a geographical system, convex_hull() of vertices in one hemisphere returns a polygon of great-circle sides whose vertices are vertices of the geometry, which turns left everywhere, and which encloses every vertex of the geometry.", "quantifier": "all lists and rings of vertices on the sphere", "why_tests_cant": "The scan compares azimuths computed from every pair of neighbours on a stack whose contents depend on the whole input; tests use a few small clouds of points.", "anchors": ["karta/vector/convexhull.pyx: convexhull_sph, isleft_sph", "karta/vector/vectorgeo.pyx: azimuth_sph, dist_sph", "karta/vector/geometry.py: MultiVertexMixin.convex_hull"]}
{"id": "C140", "title": "Lengths of lines and perimeters of polygons", "statement": "The length of a line is the sum of the distances of its consecutive vertices (Euclidean, or that of the coordinate system's `inverse`). Joining lines adds lengths; reversing keeps the length; leaving out vertices never makes a line longer, so that no two of its vertices are further apart than its length, and the last cumulative length equals the length. The perimeter of a polygon is the way around its ring back to the first vertex plus the perimeters of its sub-polygons at every level, whichever vertex the ring starts at and whichever way it is traversed.", "quantifier": "every non-empty list of vertices, every polygon with any nesting of sub-polygons, planar systems and every geographical system", "why_tests_cant": "Tests compute a few lengths; additivity, invariance and minimality range over all lines and all ways to cut or thin them.", "anchors": ["karta/vector/vectorgeo.pyx: length", "karta/vector/geometry.py: ConnectedMultiVertexMixin.length, Polygon.segments, Polygon.perimeter, Line.displacement, Line.cumulength"]}
{"id": "C141", "title": "Cell lookup in spite of rounding", "statement": "In binary floating point, on a grid without skew, the fractional row and column computed for a point differ from the true ones by less than 1/512 of a cell as long as coordinates are within 2^38 cells of the origin of coordinates. So a point at least 1/512 of a cell away from the edges of a cell is looked up in that cell (or refused, if the grid does not have it), and every centre that the grid reports through its coordinates is looked up in its own cell.", "quantifier": "every rounding of arithmetic with relative error 2^-53 that is monotonic and exact on 53-bit numbers (round to nearest in particular), every grid without skew, every point in range", "why_tests_cant": "Rounding errors depend on all digits of the cell size and of the coordinates; tests use a handful of round numbers.", "anchors": ["karta/raster/grid.py: RegularGrid.positions, RegularGrid.indices", "karta/raster/crfuncs.pyx: get_positions_vec", "karta/raster/coordgen.py: CoordinateGenerator.__getitem__"]}
{"id": "C142", "title": "Clipping and resizing in spite of rounding", "statement": "In binary floating point, clipping and resizing a grid without skew give the grid that exact arithmetic on the same numbers gives.", "quantifier": "every grid without skew and every box, in binary floating point", "why_tests_cant": "Whether a quotient is rounded across a whole number depends on all digits of the numbers; tests use cells of size 1 or 30.", "anchors": ["karta/raster/grid.py: RegularGrid.clip, RegularGrid.resize, RegularGrid.extent, RegularGrid.bbox"]}
{"id": "C143", "title": "Merging in spite of rounding", "statement": "In binary floating point, merging grids without skew gives the grid that exact arithmetic gives: grids that are a whole number of cells apart are accepted and put at their places, others are refused.", "quantifier": "every list of grids without skew, every list of weights, in binary floating point; pixel values exact", "why_tests_cant": "Whether a quotient is rounded across a whole number depends on all digits of the numbers; tests use whole cell sizes.", "anchors": ["karta/raster/grid.py: merge, RegularGrid.extent"]}
{"id": "C144", "title": "Resampling and gridding of points in spite of rounding", "statement": "In binary floating point, resampling a grid without skew by nearest cells and averaging points into cells give the grids that exact arithmetic gives; in particular resampling at the own spacing keeps all cells and every point counts.", "quantifier": "every grid without skew, every spacing and every list of points, in binary floating point; pixel values exact", "why_tests_cant": "Whether a quotient is rounded across a whole number depends on all digits of the numbers; tests use whole cell sizes.", "anchors": ["karta/raster/grid.py: RegularGrid.resample, gridpoints, RegularGrid.extent, RegularGrid.sample_nearest"]}
{"id": "C145", "title": "The index of points in spite of rounding", "statement": "In binary floating point, building the index of a multipoint ends, and searching it returns exactly the points strictly inside the box, each once; selecting the points within a radius gives the same points with and without the index.", "quantifier": "every list of points whose coordinates are doubles, every leaf capacity, every box, centre and radius, every rounding of arithmetic", "why_tests_cant": "Whether a rounded midpoint falls on a point or into another quadrant depends on the last digits of coordinates; tests use random points far apart.", "anchors": ["karta/vector/quadtree.h: qt_split, qt_insert, get_quadrant", "karta/vector/quadtree.pyx: QuadTree.__init__, QuadTree.search_within", "karta/vector/geometry.py: Multipoint.within_radius"]}
{"id": "C146", "title": "The index of geometries in single precision", "statement": "Although the index of a multipart geometry keeps bounding boxes in single precision, searching it returns exactly the geometries whose bounding boxes overlap the query, or lie within it, and its bounding box contains all geometries.", "quantifier": "every list of bounding boxes that fits one node, every query, every rounding to 24 bits", "why_tests_cant": "Single precision is coarser than a metre's fraction at usual map coordinates; tests use boxes of unit size near the origin.", "anchors": ["karta/vector/rtree.h: Bbox, rt_search_within, rt_search_overlapping", "karta/vector/rtree.pyx: RTree.__init__, RTree.search_within, RTree.search_overlapping, RTree.bbox"]}
{"id": "C147", "title": "Containment in spite of rounding", "statement": "In binary floating point, asking whether a polygon contains a point gives the answer of exact arithmetic; in particular, a polygon cut in two along a line has each of its points in exactly one of the parts.", "quantifier": "every polygon with any nesting of sub-polygons, every point, every rounding of arithmetic", "why_tests_cant": "Points whose rounded distance from an edge has the wrong sign are one in many millions; tests take points away from edges.", "anchors": ["karta/vector/contains.pyx: isleft, contains", "karta/vector/geometry.py: Polygon.contains"]}
{"id": "C148", "title": "Reducing angles in spite of rounding", "statement": "In binary floating point, reducing an angle gives the angle of the same direction from -180 to below 180, and unrolling it the one from 0 to below 360, up to a few rounding errors; doing it twice changes nothing.", "quantifier": "every angle, every rounding of arithmetic", "why_tests_cant": "The ends of the range are reached only by angles within the last digit of -180 or 0; tests use whole degrees.", "anchors": ["karta/geodesy.py: reduce_deg, unroll_deg", "karta/crs.py: GeographicalCRS.forward, GeographicalCRS.inverse, ProjectedCRS.forward, ProjectedCRS.inverse", "karta/vector/geometry.py: Point.azimuth"]}
{"id": "C149", "title": "Longitudes of bounding boxes in spite of rounding", "statement": "In binary floating point, the bounding box of a geometry with geographical coordinates contains the longitude of every vertex.", "quantifier": "every list of longitudes, open or closed, every rounding of arithmetic", "why_tests_cant": "Whether adding and subtracting 180 moves a bound inwards depends on all digits of the longitude; tests use whole degrees.", "anchors": ["karta/vector/dateline.pyx: bbox, crosses_dateline", "karta/vector/geometry.py: MultiVertexBase.bbox"]}
{"id": "C150", "title": "The area of a polygon on an ellipsoid belongs to the region", "statement": "On an ellipsoid the area of a polygon with sub-polygons does not depend on the vertex at which the ring starts, on the direction in which it runs, on a shift of all longitudes by the same number, or on a mirroring in the equator or in a meridian. Rings along the equator or along a meridian have area 0, and regions of positive size have positive area.", "quantifier": "all ellipsoids, all polygons with nested sub-polygons, all shifts", "why_tests_cant": "The area is a sum over the sides of a formula that first normalises each side and loses its hemisphere; a test compares a few areas with published values.", "anchors": ["karta/geodesy.py:ellipsoidal_area", "karta/geodesy.py:_ellipsoidal_area", "karta/geodesy.py:_canonical_configuration", "karta/vector/geometry.py:Polygon.area"]}
{"id": "C151", "title": "Coordinates by index belong to the cells read by the same index", "statement": "For every pair of integer or slice keys, grid.coordinates(crs)[i, j] has the rows and columns that grid[i, j] has and holds, for each cell read, the coordinates of that cell's centre in the coordinate system asked for. Keys that address no cell are refused or give empty arrays, as they do when values are read.", "quantifier": "all transforms with or without skew, all grid sizes, all integer and slice keys (negative, stepped, reversed, empty), all coordinate systems", "why_tests_cant": "Sixteen kinds of key pairs with different shapes and infinitely many slices; the suite tries a full slice and a few integers.", "anchors": ["karta/raster/coordgen.py:CoordinateGenerator.__getitem__", "karta/raster/coordgen.py:coordinate_transformer", "karta/raster/grid.py:RegularGrid.coordinates"]}
{"id": "C152", "title": "The JSON text of a table restates its columns", "statement": "Table.asjson() returns a JSON object with the table's fields, under each of which stands the list of the column's values in the order of the rows. Tables with the same text have the same fields and values, and every value that has a JSON form is accepted.", "quantifier": "all tables of any number of fields and rows, all mixtures of Python and numpy values", "why_tests_cant": "Holds for every table and mixture of value types; the suite only checks that the field names occur.", "anchors": ["karta/vector/table.py:Table.asjson", "karta/vector/table.py:NumpyAwareJSONEncoder.default"]}
{"id": "C153", "title": "Membership in collections, lines and polygons", "statement": "g in collection is true exactly when some part of the collection is the same as g: of the same kind, with the same vertices, holes, attributes (its row together with the attributes of the collection) and coordinate system. Every part taken out of a collection is in it. point in line is true exactly when the line has a vertex there with the same attributes and coordinate system. No exception is raised.", "quantifier": "all collections of points, lines or polygons with one row per part, all geometries asked for", "why_tests_cant": "The answer depends on every part and every attribute; the suite asks for one part of one collection.", "anchors": ["karta/vector/geometry.py:Multipart.__contains__", "karta/vector/geometry.py:MultiVertexBase.__iter__", "karta/vector/geometry.py:Multipolygon.__getitem__"]}
{"id": "C154", "title": "Tile columns in spite of rounding", "statement": "In binary floating point, the column of the tile looked up for a longitude is the one the longitude lies in: from the western border, which belongs to the tile, to the eastern one, which does not. Corners of tiles are exact, points further east are never in columns further west, and no column outside the map is returned.", "quantifier": "all zoom levels, all longitudes from -180 to 180, every rounding to 53 bits", "why_tests_cant": "Rounding errors decide at the borders, of which there are 2^z; the suite looks up a few cities.", "anchors": ["karta/tile.py:tile_from_point", "karta/tile.py:Tile.nw_corner"]}
{"id": "C155", "title": "Areas, orientations and centroids in spite of rounding", "statement": "In binary floating point, area of a planar polygon differs from the exact area of its vertices by rounding errors only, which are small compared with the polygon; isclockwise gives the orientation of the vertices; the centroid is close to the exact centroid, in particular not far outside the polygon.", "quantifier": "all planar polygons with any coordinates, for area with holes nested to any depth, every rounding to 53 bits", "why_tests_cant": "Cancellation between large products decides; it depends on the distance of the polygon from the origin. The suite uses small numbers next to the origin.", "anchors": ["karta/vector/geometry.py:Polygon.area", "karta/vector/geometry.py:Polygon.isclockwise", "karta/vector/geometry.py:Polygon.centroid"]}
{"id": "C156", "title": "Intersections of segments in spite of rounding", "statement": "In binary floating point, intersections of two planar lines or polygons finds a point exactly for those pairs of segments that have one (starts of segments excepted, C34), and the point is close to the exact one and on both segments up to rounding; the order of the two geometries does not matter.", "quantifier": "all pairs of planar segments, lines and polygons, every rounding to 53 bits", "why_tests_cant": "The three vector products are differences of rounded products, and whether a corner belongs to one of two adjoining segments is decided by their last bits. The suite intersects lines with small integer coordinates.", "anchors": ["karta/vector/intersection.pyx:intersection", "karta/vector/intersection.pyx:iscollinear", "karta/vector/intersection.pyx:all_intersections", "karta/vector/vectorgeo.pyx:cross2"]}
{"id": "C157", "title": "Vertices and coordinates in any coordinate system", "statement": "vertex(crs), vertices(crs) and coords(crs) show every part and vertex of a geometry in order, each position converted from the system of the geometry to crs and each height kept (coords gives horizontal coordinates); without crs, or with a system that compares equal, positions are as they are. coords and vertices agree. A conversion to or from a Cartesian system is refused.", "quantifier": "all points, lines, polygons, multipoints, multilines and multipolygons of any size with or without heights, all pairs of coordinate systems, any conversion", "why_tests_cant": "Geometry types, ranks, holes and systems combine freely, and each type has its own code; the suite converts one flat polygon.", "anchors": ["karta/vector/geometry.py: Point.vertex, MultiVertexMixin.coords, MultiVertexMixin.vertices, Multiline.vertices, Multiline.coords, Multipolygon.vertices, Multipolygon.coords, Multipolygon.__init__", "karta/vector/utilities.py: _reproject", "karta/crs.py: CartesianCRS.transform, GeographicalCRS.transform, ProjectedCRS.transform"]}
{"id": "C158", "title": "The sum of two geometries is the collection of both", "statement": "a + b of two points, two lines or two polygons is the collection of a and b, in this order, in the coordinate system of a: its parts have the vertices, heights and holes of a, and those of b converted to the system of a.", "quantifier": "all pairs of points, lines and polygons with or without heights and holes, all pairs of coordinate systems", "why_tests_cant": "The suite adds three pairs of flat geometries without holes and looks at the number of parts only.", "anchors": ["karta/vector/geometry.py: Point.__add__, Line.__add__, Polygon.__add__"]}
{"id": "C159", "title": "A polygon is closed however it was obtained", "statement": "Every Polygon, whether made from coordinates or points, from a line with to_polygon, or taken from a Multipolygon by index, iteration or query, can tell of each point whether it contains it, and has a side from its last vertex to its first that counts in crossings like all others.", "quantifier": "all polygons with sub-polygons of any depth, all ways to obtain them, all points and lines", "why_tests_cant": "Closedness is a flag handed on or lost by constructors; the suite asks for containment only of polygons made from coordinates.", "anchors": ["karta/vector/geometry.py: MultiVertexBase.__init__, Polygon.__init__, Line.to_polygon, Multipolygon.__init__, Multipolygon.__getitem__, Polygon.contains", "karta/vector/contains.pyx: contains, contains_proj", "karta/vector/intersection.pyx: all_intersections, intersects"]}
{"id": "C160", "title": "Holes count in any coordinate system", "statement": "A polygon with holes contains exactly the points that are in its outer ring and in none of its holes, whatever the coordinate systems of the point, the polygon and the holes, and its area is that of the outer ring less those of the holes in the units of the polygon. This includes polygons read from shapefiles.", "quantifier": "all polygons with sub-polygons of any depth, each in any system; all points; all shapefiles with polygons with any number of holes", "why_tests_cant": "Systems are object attributes that constructors and readers set or forget; the suite reads polygons without holes, or does not ask whether they contain a point.", "anchors": ["karta/vector/geometry.py: Polygon.contains, Polygon.area, Point.vertex, DEFAULT_CRS", "karta/vector/read.py: _from_shape, read_shapefile"]}
{"id": "C161", "title": "Queries between geometries in different coordinate systems", "statement": "intersects, intersections, within_radius and within_polygon answer as if the second geometry had first been converted to the coordinate system of the first (for a radius: the points to the system of the centre), with or without a spatial index; when no conversion exists they raise.", "quantifier": "all pairs of planar geometries of any size in any two coordinate systems, any conversion, all radii and polygons with holes, indices built over any list of points", "why_tests_cant": "Every query converts something else: boxes, vertices or points; the suite compares geometries of one system.", "anchors": ["karta/vector/geometry.py: ConnectedMultiVertexMixin.intersects, ConnectedMultiVertexMixin.intersections, ConnectedMultiVertexMixin.bbox, Multipoint.within_radius, Multipoint.within_polygon"]}
{"id": "C162", "title": "Vertices as nested lists", "statement": "Line, Polygon and Multipoint take vertices nested to any depth and of lists or tuples, in reading order; the coordinates shown in geometry dictionaries and GeoJSON have the structure of the vertices with lists all through, and taken again give the same vertices. An empty part counts as a part without vertices.", "quantifier": "all nested lists and tuples of coordinates of any depth and size", "why_tests_cant": "Nesting depth and mixed structures are unbounded; the suite gives flat lists.", "anchors": ["karta/vector/utilities.py: _flatten, _as_nested_lists", "karta/vector/geometry.py: MultiVertexBase.__init__, Line.geomdict, Multiline.geomdict, Multipolygon.geomdict", "karta/vector/_geojson.py: GeoJSONOutMixin._as_named_tuple"]}
{"id": "C163", "title": "Text descriptions of coordinate systems", "statement": "get_proj4 and get_wkt describe the coordinate system the object was made from, whichever description it has, and raise AttributeError if it has none; the reference written to raster files is that system.", "quantifier": "all coordinate systems with any definition text, any parameters; any implementation of the spatial reference library that reads and writes consistently", "why_tests_cant": "The texts are open ended and pass through string replacements; the suite looks at a few predefined systems.", "anchors": ["karta/crs.py: CRS.get_proj4, CRS.get_wkt, CartesianCRS.__init__, GeographicalCRS.__init__, ProjectedCRS.__init__", "karta/raster/_gdal.py: srs_from_crs"]}
{"id": "C164", "title": "apply changes exactly the cells with data", "statement": "grid.apply(func) hands func the values of the cells with data and puts its results back into these cells; cells without data, the transform and the nodata value stay as they are; the grid itself changes only with inplace=True.", "quantifier": "every grid with any number of bands and any layout of cells without data, every function that returns as many values as it gets, with and without inplace", "why_tests_cant": "The layouts of missing cells in several bands are not sampled by tests, which apply functions to single bands.", "anchors": ["karta/raster/grid.py: Grid.apply, data_mask_full", "karta/raster/band.py: BandIndexer._get_from_array_mask, _set_from_array_mask"]}
{"id": "C165", "title": "Grids are independent values unless made of the same bands", "statement": "Assignments to a grid, set_nodata_value and operations in place change that grid and no other; copies, clips, sums, masked and resized grids neither change with the original nor change it.", "quantifier": "every history of constructors, copies, assignments, changes of the nodata value and derived grids, over any number of grids and bands in memory or on file", "why_tests_cant": "Aliasing shows only after particular sequences of calls on several objects.", "anchors": ["karta/raster/grid.py: RegularGrid.__init__, Grid.copy, Grid.apply, RegularGrid.__setitem__, set_nodata_value, resize, clip, mask_by_poly, __add__", "karta/raster/_gdal.py: GdalFileBand.setblock"]}
{"id": "C166", "title": "A copy of a grid can be used like the grid", "statement": "Whatever a user looks up on a grid by position - sampling points and multipoints, masking by polygons, its extent or its coordinates in some coordinate system, clipping - gives the same on grid.copy() (and on results made through a copy, such as apply) as on the grid.", "quantifier": "every grid in any kind of coordinate system, every geometry, coordinate list and target system, every identity of the copied system object", "why_tests_cant": "Whether systems are compared by identity or by definition shows only when copies meet objects made before the copy; tests sample grids they have just made.", "anchors": ["karta/raster/grid.py: Grid.copy, RegularGrid.sample, mask_by_poly, extent, coordinates, clip", "karta/raster/coordgen.py: CoordinateGenerator", "karta/crs.py: CRS.__eq__, Cartesian"]}
{"id": "C167", "title": "Extents and clips in another coordinate system cover the grid and the box", "statement": "grid.extent(reference, crs) contains every cell centre (or every point of every cell) converted to crs, and is no larger than needed; grid.clip(xmin, xmax, ymin, ymax, crs) keeps every cell whose centre, seen in crs, is in the box.", "quantifier": "every grid size and transform, every pair of systems and conversion between them, every box", "why_tests_cant": "The conversion is sampled at four corners; whether that suffices depends on its behaviour on the whole box.", "anchors": ["karta/raster/grid.py: RegularGrid.extent, RegularGrid.clip"]}
{"id": "C168", "title": "Bilinear sampling in spite of rounding", "statement": "Computed in floating point, the bilinear sample is the interpolated value up to a few units of rounding; at cell centres it is the value of the cell; where all neighbours are equal it is their value; integer grids give the truncated interpolated value.", "quantifier": "every array of values, every position in the hull of the cell centres, every rounding to 53 bits", "why_tests_cant": "Rounding shows at particular positions only, and truncation turns an error in the last bit into a whole unit.", "anchors": ["karta/raster/crfuncs.pyx: sample_bilinear_double, sample_bilinear_int, sample_bilinear_uint", "karta/raster/grid.py: RegularGrid.sample_bilinear"]}
{"id": "C169", "title": "Planar lengths and distances in spite of rounding", "statement": "Computed in floating point, distances and lengths of planar lines have a small relative error that grows with the number of vertices only; a distance is zero only between equal points and is the same both ways; the last cumulative length is the length; more vertices at the end never make a line shorter; the nearest vertex found is nearest up to rounding; a line and its reverse have the same length, and the straight way is never longer than a detour.", "quantifier": "every list of vertices, every point, every rounding to 53 bits, every square root with an error of at most two units of rounding", "why_tests_cant": "Rounding accumulates over lines of any number of vertices.", "anchors": ["karta/vector/geometry.py: Point.distance, Line.length, Line.cumulength, nearest_vertex_to", "karta/vector/vectorgeo.pyx: length"]}
{"id": "C170", "title": "Grids of integers of a fixed size keep their numbers", "statement": "In a grid of an integer type, assigned numbers are read back; set_nodata_value keeps the set of missing pixels; sums and differences hold the sums and differences of the cells, missing where a pixel is missing; resize marks new cells as missing.", "quantifier": "every integer type, every grid of that type with any number of bands, all keys and values, all nodata values", "why_tests_cant": "Types overflow for particular values only, silently.", "anchors": ["karta/raster/grid.py: RegularGrid.__setitem__, set_nodata_value, __add__, __sub__, resize, get_nodata", "karta/raster/band.py: BandIndexer.__setitem__, CompressedBand.setblock, CompressedBand.getblock"]}
{"id": "C171", "title": "Sampling along a line comes to an end", "statement": "to_points(dx) and to_npoints(n) return on every line, for every spacing and every number of points.", "quantifier": "every planar line, every spacing dx, every number of points n", "why_tests_cant": "A loop that does not end for some spacing is not seen with others.", "anchors": ["karta/vector/geometry.py: Line.to_points, Line.to_npoints"]}
{"id": "C172", "title": "Affine transforms in spite of rounding", "statement": "With rounded arithmetic, a transformed vertex is within five units of rounding of the exact one, relative to the magnitudes of the terms; the identity, quarter turns and reflections are exact; a shift rounds once for each coordinate; scaling by non-negative factors and shifting takes the bounding box to the bounding box to the last bit; and a shift followed by the opposite one gives back the geometry.", "quantifier": "every rounding to nearest with 53 bits, every non-empty list of planar vertices, every 2x3 matrix or shift vector", "why_tests_cant": "Rounding errors depend on all the digits of all coordinates; tests compare a few round numbers within a tolerance.", "anchors": ["karta/vector/geometry.py: MultiVertexMixin.apply_transform, MultiVertexMixin.shift, MultiVertexMixin.bbox"]}
{"id": "C173", "title": "Gradients in spite of single precision", "statement": "gradient casts elevations to single precision. Each component is nevertheless within nine units of single precision of the true slope, relative to the elevations; never has the wrong sign; is zero where both sides agree; does not depend on an offset; and is missing exactly where the exact gradient is.", "quantifier": "every grid of rational elevations, every interior cell, every rounding to single precision for the cast, and to single or a wider precision for the arithmetic", "why_tests_cant": "Whether a slope survives depends on all the bits of all the elevations; tests use small surfaces around zero.", "anchors": ["karta/raster/misc.py: gradient, _grad"]}
{"id": "C174", "title": "Nearest points of lines in spite of rounding", "statement": "The nearest point of a planar line is computed by projecting the query on each segment in double precision. The point returned nevertheless lies close to the line, no point of the line is closer to the query except for rounding errors, the distance returned is that of the point returned within seven units of rounding, and a vertex of the line is at distance zero.", "quantifier": "every query, every line with two or more vertices and no segment without length, every rounding to double precision, every rounded square root", "why_tests_cant": "The rounded foot of the perpendicular leaves the segment by amounts that depend on all the bits of five numbers; tests compare a few results approximately.", "anchors": ["karta/vector/vectorgeo.pyx: proj2, pt_nearest_planar", "karta/vector/geometry.py: Line.nearest_vertex_to, _nearest_to_point, nearest_on_boundary, shortest_distance_to"]}
{"id": "C175", "title": "Areas of sides on an ellipsoid are areas", "statement": "The area that is assigned to a side of a polygon on an ellipsoid is the area between the geodesic and the equator, up to the truncation of a series after the terms of fifth order in the square of the second eccentricity.", "quantifier": "all oblate ellipsoids, all latitudes but the poles, all azimuths but due north and south", "why_tests_cant": "The value is a sum of 36 rational coefficients times powers and cosines; a wrong coefficient changes the area by square centimetres on the Earth, far below what tests compare.", "anchors": ["karta/geodesy.py: _ellipsoidal_area, ellipsoidal_area, _solve_NEA, _solve_NEB"]}
{"id": "C176", "title": "Destinations on an ellipsoid lie on the geodesic at the given distance", "statement": "On an ellipsoid the forward problem leads to a point of the geodesic that leaves the start with the given azimuth: its latitude is exactly that of a point of the geodesic, the back azimuth points back along the geodesic there, and the length of the geodesic up to this point and its longitude agree with the given distance and the returned longitude up to the truncation of the series after sixth order. On the Earth that is less than a nanometre for distances up to 20000 km.", "quantifier": "all oblate ellipsoids with a third flattening of at most a tenth, all starting points but the poles, all azimuths but due north and south, all distances", "why_tests_cant": "Four truncated series with some sixty rational coefficients are summed and one of them is the inversion of another; a wrong coefficient of high order changes results below the precision of any test.", "anchors": ["karta/geodesy.py: ellipsoidal_forward, _solve_NEA"]}
{"id": "C177", "title": "Distances and azimuths on an ellipsoid are those of a geodesic between the points", "statement": "When the inverse problem on an ellipsoid answers without a convergence warning, a geodesic leaves the first point with the returned azimuth and arrives at the latitude of the second point with the direction opposite to the returned back azimuth; its length is the returned distance up to the truncation of the series, and the longitude at its end is that of the second point up to the tolerance and the truncation. Points on one meridian get the length of the meridian; points on opposite meridians get the length of the way over the pole of the hemisphere that the mean of their latitudes is in, and both azimuths of that pole.", "quantifier": "all oblate ellipsoids with a third flattening of at most a tenth; all pairs of points off the poles and not both on the equator, whose meridians are equal, opposite or further from being so than the tolerance and 1e-12 radians; all tolerances, all behaviours of the root finder that makes the first guess", "why_tests_cant": "The answer is what an iteration of up to a hundred rounds with a remainder modulo a full turn ends with; the rounds may pass through azimuths on the wrong side, and the case distinctions of the canonical configuration and of the arcs only show for all configurations together.", "anchors": ["karta/geodesy.py: ellipsoidal_inverse, _solve_NEA, _solve_NEB, _canonical_configuration, solve_vincenty, solve_astroid"]}
{"id": "C178", "title": "count_crossings counts the sides above a point", "statement": "count_crossings returns the number of sides of a line or ring that a vertical ray upwards from the point meets, each shared vertex counted once where the line passes on; for a point off the boundary of a ring that goes round it at most once the number is odd exactly when the polygon contains the point.", "quantifier": "all lines and rings, all points", "why_tests_cant": "The rule for rays through vertices, for horizontal sides and for vertical ones has to fit together for every configuration, and the parity only follows from all sides together.", "anchors": ["karta/vector/intersection.pyx: count_crossings, intersects_cn, isbetween_incl, isbetween_incr"]}
{"id": "C179", "title": "sphere_azimuth is the direction of the great circle", "statement": "The great circle that leaves the first position with the azimuth that sphere_azimuth returns passes through the second position after an arc equal to the angle between them, and no other azimuth does unless they are the same or opposite. Sequences of coordinates are treated pair by pair, and a number among sequences stands for the same number for all.", "quantifier": "all pairs of positions, the second one not a pole; all sequences", "why_tests_cant": "The azimuth divides by the cosine of a latitude and has to come out in the right one of four quadrants for every pair.", "anchors": ["karta/geodesy.py: sphere_azimuth, recurse_iterables", "karta/vector/vectorgeo.pyx: azimuth_sph"]}
{"id": "C180", "title": "Convex hulls in spite of rounding", "statement": "convex_hull of a planar geometry returns a polygon that begins with the leftmost vertex and has input vertices only, whatever rounding does; and with coordinates in whole multiples of a power of two, at most 2^22 of them, rounding does not change that the polygon turns left throughout and encloses every vertex.", "quantifier": "all lists of vertices, open or closed; all roundings to 53 bits, and all C libraries whose atan2 is accurate to 2^-51", "why_tests_cant": "Rounding decides the order of the azimuths and the sign of every turn; whether the smallest difference between two directions exceeds the errors has to be shown for all vertices.", "anchors": ["karta/vector/convexhull.pyx: convexhull, isleft", "karta/vector/vectorgeo.pyx: azimuth, dist2", "karta/vector/geometry.py: convex_hull"]}
{"id": "C181", "title": "Distances on the sphere in spite of rounding", "statement": "The distance that sphere_distance returns differs from the true great-circle distance by at most 2^-22 of the radius, and for positions close together by at most a part of 2^-46 of the distance itself; a distance is returned for all pairs of positions.", "quantifier": "all pairs of positions with latitudes between the poles and longitudes up to 8 radians apart; all roundings to 53 bits, and all C libraries that are accurate to a unit in the last place", "why_tests_cant": "The formulas cancel and amplify rounding errors in different places; a bound has to hold for every pair of positions.", "anchors": ["karta/geodesy.py: sphere_distance"]}
{"id": "C182", "title": "Distances of all vertices from a point", "statement": "flat_distances_to returns the distance in the plane or in space of each vertex from the point, in order, the same distances that distances_to returns for planar systems.", "quantifier": "all lines, polygons and multipoints and all points, in any planar systems, with two or three coordinates", "why_tests_cant": "All numbers of vertices and all combinations of systems and numbers of coordinates; the suite does not call the method.", "anchors": ["karta/vector/geometry.py: MultiVertexMixin.flat_distances_to", "karta/vector/geometry.py: MultiVertexMixin.distances_to", "karta/vector/geometry.py: Point.distance"]}
{"id": "C183", "title": "Tile rows in spite of rounding", "statement": "In binary floating point, the row of the tile looked up for a latitude is the one the latitude lies in on the square Mercator map: from its northern border, which belongs to the tile, to its southern one, which does not. Points further south are never in rows further north.", "quantifier": "all zoom levels, all latitudes on the map, every rounding to 53 bits, and all C libraries whose tan and log are accurate to a unit in the last place", "why_tests_cant": "Rounding errors are amplified 23-fold next to the borders of the map and decide at the borders of the rows, of which there are 2^z; the suite looks up a few cities.", "anchors": ["karta/tile.py:tile_from_point"]}
{"id": "C184", "title": "Corners of tiles in spite of rounding", "statement": "In binary floating point, the latitude of the corner of a tile is that of the border of its row on the Mercator map; the southern limit of a tile is south of the northern one; and looking up the corner gives the tile itself.", "quantifier": "all zoom levels up to 44 (50 for the latitude), all rows, every rounding to 53 bits, and all C libraries whose sinh, atan, tan and log are accurate to a unit in the last place", "why_tests_cant": "Four transcendental functions are composed and errors decide at 2^z borders; the suite checks a few tiles.", "anchors": ["karta/tile.py:Tile.nw_corner", "karta/tile.py:Tile.bbox", "karta/tile.py:tile_from_point"]}
{"id": "C185", "title": "A shapefile is read under the name it was saved", "statement": "After geometry.to_shapefile(name) or write_shapefile(name, geometry), read_shapefile(name) opens the file just written; a name may be given with or without the extension .shp, and files meant by other names stay as they were.", "quantifier": "all file names, with and without extension, and all contents of the disk before", "why_tests_cant": "tests use a handful of names, and write_shapefile only with the extension", "anchors": ["karta/vector/_shp.py:ShapefileOutMixin.to_shapefile", "karta/vector/_shp.py:write_shapefile", "karta/vector/_shp.py:ogr_write", "karta/vector/read.py:get_filenames", "karta/vector/read.py:ogr_read_shapefile"]}
{"id": "C186", "title": "The shape of grid.values", "statement": "grid.values.shape is (m, n) for a single band of m rows and n columns and (N, m, n) for N > 1 bands. Its numbers of rows and columns are those of the rows that iteration yields and of the array grid[:,:].", "quantifier": "all grids with any number of bands, after any history of writes", "why_tests_cant": "tests have no shape of grids with several bands, and the agreement with reading holds for all sizes only by proof", "anchors": ["karta/raster/band.py:BandIndexer.shape", "karta/raster/band.py:BandIndexer.__iter__", "karta/raster/band.py:BandIndexer.__getitem__"]}
