## 5. Where the code departs from the property

Every item was found while modelling. "(thm)" marks the ones for which the model has a theorem named `Cnn_violated_…`;
the others restrict a `_partial` theorem or are outside the model.

**Bands** – writing past the last row or column corrupts other chunks (thm, C04); an inverted slice raises `ValueError` and
integer indices wrap modulo the size (C05); masks over three-dimensional blocks do not round trip (C07); `SimpleBand` returns views.

**Tables and parts** – `setfield` on an empty table drops the field; `updated` loses fields of empty tables; `_subset` and
`__setitem__` depend on set iteration order; a `Multipoint` of points without common properties has a table with no rows; a string
property whose length is the number of parts is split into characters; a `Table` argument is not checked for length;
`__setitem__` with a tuple stores a generator as the row.

**Quadtree** – leaves of capacity 1 split for ever; `within_radius` compares degrees with metres; `within_polygon` with the index
drops points on the border of the polygon's box; `bboxes_overlap` works in 32-bit floats (not modelled).

**R-tree** – both seeds of a split can be item 0, so that the last geometry is lost and the first stored twice (thm, C26); the "fill
to two" path leaves a stale box; flat boxes never overlap; `max_results` is ignored; the box is a placeholder after the first split
of the root; `rt_split_nonleaf` updates the parents of the seeds only, so that
later insertions extend the box of the wrong node and geometries are missed (thm, C26).

**Segments and polygons** – `iscollinear` is true for any two horizontal segments at one height and false for any two segments drawn to the lower left, even identical ones; the sweep
loops for ever when a line retraces a directed segment, never compares overlapping vertical segments, misses a vertical segment
against one that ends at the same abscissa, and misses every pair of
lines that touch end to end from opposite sides, since the ending one is removed before the beginning one is compared (thm, C36); `contains` leaves out the right and upper border; `apply_transform`, `shift` and
`rotate` drop holes; 3x4 matrices do not compose on two-dimensional geometry; `pt_nearest_planar` is wrong for horizontal segments
shorter than 1e-4 and raises for segments of no length; the closing side of a polygon is left out of `nearest_on_boundary`;
`within_distance` uses `all`; a geometry with one vertex has distance -1.

**Hull** – a nearer vertex on the lowest ray replaces the farther one; collinear input loses an end; `IndexError` for repeated
leftmost vertices with one direction and for a single vertex.

**Grids** – the last row of `vertex_coords` is not filled; `extent` is wrong for skews of opposite sign; the side to which an index
lookup on a cell border rounds depends on parity; `aschunks` with its default size never ends on grids with fewer than four rows or
columns; `clip` beyond the first row or column misplaces data; `clip` of a skewed grid keeps cells outside the box; `resize` and
`merge` raise for negative row spacing and misplace the cells of skewed grids (thm, C13, C14); `merge` drops a pixel in all bands if one is missing; bilinear sampling raises in the first
row of centres and for one row or column; `sample_nearest` scrambles several bands; `mask_by_poly` is upside down for negative row
spacing, wrong for oblong cells, ignores holes, counts crossings in 8 bits and decides a cell by the middle of its lower side instead of
its centre (thm, C66).

**Files** – the output of `to_aai` cannot be read back and starts with the bottom row; `sx != sy != 0.0` accepts skewed grids;
`read_geotiff` negates skews and misplaces the corner; a single row or column cannot be read in memory; `from_geotiffs` never compares
transforms; NaN nodata values make its check depend on order; a shapefile attribute `id` collides with the reserved column; names
can exceed ten characters; an attribute first set in the 101st feature is dropped; an empty list raises `IndexError`.

**Surfaces** – `divergence` ignores the mask; `gradient` of one row has two rows; slopes on the border are extrapolated and can be
negative; `aspect` is mirrored north-south; the light vector of `hillshade` is not a unit vector.

**Caches** – `Multipoint.__setitem__` leaves cached values and the quadtree stale; `Line.extend` replaces the coordinates by an array
on which `bbox` and `length` raise.

**Geodesy** – `ispolar` is true for every ring across the date line; `isbetween_circular` is false for opposite ends; `Point.azimuth` is
NaN on a common meridian; distances between 2-D and 3-D points violate the triangle inequality; `cart2sph` returns latitudes above
90, wrong longitudes for slightly negative x and raises at the poles; `intersection_spherical` returns latitudes above 90 for southern
crossings; geographical `intersections` raises unless every pair of segments crosses; `bndlat_sph` is wrong when the arc crosses the equator
and passes its peak; `to_points` forgets the remainder over short segments; `to_npoints` returns too few points when the step is below 1e-8;
`ellipsoidal_inverse` divides by zero on a sphere when the latitudes nearly cancel; areas of polygons (also on ellipsoids, thm, C150) across the equator or the date line
are wrong; `ellipsoidal_area` mixes degrees and radians; a segment that runs southwards along a meridian is never reported to cross anything.

**Queries on parts** – `within` returns lines that run across holes; `within` and `touching` never return horizontal or vertical lines.

**Merging** – `Multipolygon.merge` of polygons with different ranks raises `NameError` (`imin`); a multipolygon made from polygons with
holes raises `AttributeError` on `vertices` and `merge`; `Polygon + Polygon` drops the holes of both.

**GeoJSON and the geo interface** – `as_geojson` of a collection updates its properties in place with all data columns, so that afterwards
`geom[i].properties` holds whole columns. Holes read from GeoJSON are plain lists: `contains` and `as_geojson` raise `AttributeError`.
Rings of multipolygons gain a vertex on each round trip. Export of a polygon that is not in WGS84 drops its holes, and with
`force_wgs84=False` and no URN every export raises `NameError` (`geoms`). `from_shape` returns Cartesian geometries without data.

**GPX** – reading any file with a waypoint raises `AttributeError` (`parse_wpt` uses `wpt.properties` and `self.waypoints`). Tracks, segments
and routes read from a file gain a property `extensions`. `add_track` refuses lines (no attribute `data`), loses heights unless a field
known to GPX is present and does not convert coordinates to longitude and latitude; `add_route` raises `TypeError` for any attribute.

**Resampling and grid arithmetic** – `resample` to one column and several rows returns one row; `resample` of several bands mixes the bands,
as the array of samples is reshaped in the wrong order; on skewed grids it extends beyond the cells; rows that run south are returned
running north. `data_extent` starts the right edge at the y anchor (`rx = y0`), is off by a row at the bottom when rows run south and raises
`IndexError` for several bands. `grid + grid` adds nodata values as if they were data. `max` and `min` ignore cells that miss data in any band,
`minmax` does not. `_align_origin` raises when the moved grid has no centre on the original.

**Objects** – `==` of polygons ignores holes; `==` of multipoints with as many points and different ranks raises `ValueError`; geographical
systems compare by identity, so that `==` is not transitive across a projected system. Equal geometries can have different hashes, as the
name of the system and the bytes of `-0.0` enter; `hash` of a multiline or multipolygon raises `AttributeError`. `polygon[:]` drops the
holes. `Line(points)` and `Polygon(points)` do not convert coordinates, `Multipoint(points)` does. `polygon.to_line().to_polygon()` has one
vertex more.

**Sharing** – a shifted multipoint shares its table with the original: assigning `moved[0] = point` changes the attributes of the original.
Vertices, slices and converted geometries share the dictionary of properties. Moving a multiline or multipolygon turns its properties into
data columns and replaces columns of the same name.

**Ellipsoids** – datum `carthage` raises `KeyError` (`clark80` is not a known ellipsoid; it should be `clrk80`). `+f=0` raises
`ZeroDivisionError`. `+alpha=30` between `+a` and `+b` is taken for the major axis. `+R=` and `+rf=` are refused. `crs_from_wkt` puts every
geographical system on the datum WGS84.

**Shapefiles** – multipolygons are lost on writing, as they are written as a multilinestring (`ogr.Geometry(5)`) to which OGR adds no
polygons. Third coordinates are not written. Geometries of another type than the first are refused by OGR without notice. Dates and times
are read as `None`, missing text as `"None"`. `+proj=latlong` is written as `+proj=latlongg`; Cartesian coordinates are written as
longitude and latitude on WGS84. Files on a sphere raise `ZeroDivisionError`, files on any datum are read as WGS84. `write_shapefile`
without geometries raises `IndexError`.

**Tables** – `checktypes=True` refuses every table with values (`isinstance(t, d[i])` has its arguments swapped). `setfield` on a table
whose last row was deleted forgets all other fields. `table[i] = row` stores rows of any length, after which the columns cannot be read.

**Sampling** – `sample(x, y)` with two numbers raises `TypeError` (thm, C130); `sample(xs, ys, crs=Cartesian)` on a Cartesian grid raises
`NotImplementedError` although nothing has to be converted (thm, C130); `profile` without a resolution never returns on grids with a
negative cell size, as `min(transform[2:4])` is negative (thm, C131).

**Memory** – `QuadTree.search_within` never destroys the pool of results: two blocks per search leak (thm, C133). `rt_free` frees neither
arrays of children nor anything of inner nodes; `RTree.__init__` leaks everything if an item has no `bbox`; with 51 equal boxes dropping
the index frees a box twice (thm, C134). `RTree.search_within` and `search_overlapping` leak the box of the query (thm, C135).

**Geographical intersections** – `contains` of a polygon around a pole tells whether no side passes due north of the point clockwise (the
second branch of the loop repeats the condition of the first, and the result is inverted): points inside an eastward ring around the south
pole are outside, points of the meridian 0 far away are inside (thm, C136). Two segments of the same great circle never intersect, and a
segment across the meridian 180 is taken to go the other way around (thm, C137). The order of the sweep line of `intersects_sph` is computed
from the pole of a segment from pole to pole, which is zero, so that heights are NaN (with rounding, NaN or a value at random). Segments of
the same line are tested against each other, so that a line that turns back meets everything whose bounding box overlaps (thm, C138). When
a segment ends, it is tested itself instead of its neighbours, so that crossings are missed (thm, C138). `cross3` has the wrong sign in its
second component; `iscollinear_sph` is never called.

**Convex hull in geographical coordinates** – the azimuth from a vertex to a copy of itself is 0, so `convex_hull()` of a ring whose first vertex
is dented keeps the dent and lists the vertex twice (thm, C139). Across the meridian 180 the scan starts at a vertex that need not be on the
hull (thm, C139). Vertices on the lowest great circle from the leftmost vertex may be lost, as in the plane (C46).

**Lengths** – `length` and `perimeter` ignore the third coordinate while `displacement` and `cumulength` use it: a line straight up has
length 0 and displacement 1 (thm, C140).

**Rounding** – the code divides coordinates by cell sizes and takes floors, ceilings, truncations and remainders of the quotients without
tolerance. With cells of 0.1 (not a double) quotients that should be whole are rounded to either side: `resize` keeps one column too many,
`clip` to reported cell centres loses a column (thm, C142); `merge` refuses aligned grids or puts them one column off, depending on the order
(thm, C143); `resample` at the own spacing loses a column and `gridpoints` raises `IndexError` for a point on the last edge (thm, C144).

**Rounding in indices** – the quadtree divides a leaf at rounded midpoints. Between neighbouring doubles the midpoint is one of them: a leaf
can then lie outside its quadrant and replace it, and its points are lost; with a leaf capacity of at most four the division never ends
(thm, C145). `within_radius` rounds the box to search but not the radius, so the index hides points (thm, C145). The R-tree keeps bounding
boxes as C `float`: geometries smaller than the spacing of single precision (a quarter or half of a metre at UTM northings) are never found, geometries
outside the query are reported as within it, and `RTree.bbox` does not contain its geometries (thm, C146).

**Rounding in containment** – the sign of `isleft` is wrong for points very near an edge, so that a point of a polygon may be in neither or
in both of the parts into which it is cut (thm, C147). The centroid of a square of 1 m at map coordinates such as
(555143.3, 4997514.7) is reported more than 800 m away from it, because the products of coordinates are summed without subtracting a
reference point first (thm, C155). A path and a line that cross in a corner of the path may be reported not to meet (thm, C156).

**Rounding of angles** – `(x + 180) % 360 - 180` gives 180 for the double below -180 and -180 for the double below 180; `x % 360` gives 360
for small negative angles (thm, C148). The same expression at the end of `dateline.bbox` rounds the limits, so that a geometry need not lie
within its own bounding box: the box of longitudes 0 and 0.1 ends at 0.09999999999999432 (thm, C149).

**Coordinates by index** – `grid.coordinates()[-1, 0]` is a row before the first one although `grid[-1, 0]` is the last row; keys beyond the
grid are accepted; slices of one row lose an axis and empty slices raise `ValueError` (thm, C151).

**Tables as JSON** – `Table.asjson` wraps every column in a list of its own, so that the decoded object does not hold the columns; numpy's
unsigned and boolean numbers raise `TypeError` (thm, C152).

**Membership** – a polygon counts as a member of a `Multipolygon` whatever its holes are (thm, C153).

**Rounding in tiles** – the corner of a tile is an exact double, but looking it up may give the tile to the west: this happens for 4 of the
32 columns at zoom level 5 (the counterexample proved is column 1). The double below 180 degrees is looked up in a column that does not
exist (thm, C154).

**Heights and systems** – `vertices(crs)` of lines, polygons and multipoints with heights raises `AttributeError` (the result of a
conversion is a tuple and has no `append`); points and the parts of collections lose their heights. The holes of a `Multipolygon` built from
polygons are stored as `Polygon` objects in their own system: `vertices()` raises, and `vertices(crs)` shows them in the wrong place (thm,
C157). `polygon + polygon` drops the holes of both (thm, C158).

**Open polygons** – the coordinate strings of `Multipolygon` parts and of polygons made with `to_polygon` are not marked as rings:
`contains` raises `TypeError` for all of them, and their closing side is missing in `intersects`, `intersections`, `touching` and `within`
(thm, C159).

**Holes of polygons read from shapefiles** – `read_shapefile` sets the coordinate system of the polygon and not of its holes, which stay
in the Cartesian default: `contains` raises `AttributeError` for every point inside the ring, and `area` subtracts areas in the wrong units
(thm, C160).

**Queries across systems** – `intersects` converts the box of the other geometry but not its vertices, `intersections` converts nothing, and
`within_radius` with an index searches around the coordinates of the centre in its own system (thm, C161). `within_polygon` with an index
searches the box of the converted vertices, which does not hold the polygon when straight sides become curved (thm, C161).

**Empty parts** – `_flatten` and `_as_nested_lists` look at the first item of every part: an empty part raises `IndexError`, so a multiline
with an empty line can be built but not exported (thm, C162, C105, C106).

**Descriptions of systems** – `get_wkt` replaces `latlon` by `latlong` also inside `latlong`: a system made with `+proj=latlong` gets an empty
WKT text (thm, C163).

**apply on several bands** – `Grid.apply` reads all bands into one vector and assigns that vector to each band: it raises `ValueError` for
every grid of two or more bands with two cells of data; in place, bands may have been changed already (thm, C164).

**Grids on files** – a grid read with `in_memory=False` cannot be resized: `resize` calls the constructor of its band class with keywords
that `GdalFileBand` does not have (thm, C165).

**Copies of Cartesian grids** – `Grid.copy` also copies the coordinate system, and Cartesian systems are compared by identity: on a copy of a
grid in the default system (also the result of `apply`), `sample`, `mask_by_poly`, `extent(crs)` and `coordinates(crs)` with geometries or
the system of the original raise `NotImplementedError` (thm, C166).

**Extents and clips in other systems** – `extent(crs)` and `clip(…, crs)` convert four corners only: for conversions that bend the sides of
the box (conic, transverse projections) cell centres lie outside the extent, and clips lack cells of the given box (thm, C167).

**Integer grids sampled one too low** – `sample_bilinear_int` and `sample_bilinear_uint` truncate a sum that rounding may have left just below
an integer: a grid that is 3 throughout is sampled as 2 at position (1.1, 1.2), the point (1.7, 1.6) of a grid at the origin (thm, C168).

**Lengths that depend on the direction** – the sum of `length` is rounded after each segment, so a long segment first swallows the short ones
after it: the line (-2^53,0) (0,0) (1,0) (2,0) has length 2^53, its reverse 2^53 + 2 (thm, C169).

**Nodata values outside the type** – `set_nodata_value(-1)` on a grid of type uint8 stores 255 in the missing pixels but compares with -1: no pixel is
missing any more, and `resize` fills with 255 that counts as data (thm, C170).

**Missing plus missing is data** – `g + h` and `g - h` add the nodata values: with the default nodata value, a pixel missing in both grids holds data
in the sum and in the difference, in every integer type (thm, C170).

**Endless sampling** – `to_points(0)`, `to_points(-1)` and `to_npoints(0)` append points for ever instead of raising (thm, C171).

**Far shifts** – `shift((2.**53, 0))` merges the vertices (0, 0) and (1, 0), and shifting back leaves both at (0, 0) (thm, C172).

**Slopes across equal rows** – `gradient` adds the three cells of the row after in the order middle, right, left, and those of the row before in the order middle, left, right. In single precision the sums of equal rows differ: for columns of 857.3, 251.7 and 587.4 the second component is 1/65536 instead of 0 (thm, C173).

**Lost slopes** – `gradient`, `slope` and `aspect` cast to single precision before taking differences, so elevations of 33554432 and more that differ by one or two are flat (thm, C173).

**Last vertices off their line** – The foot of the perpendicular is computed from the first end of a segment, so the last vertex of a line may have a positive distance to the line, whereas all other vertices are at distance zero: for the line from (-3, 0) to (0.3, 0) the point returned for (0.3, 0) is (0.2999999999999998, 0) (thm, C174).

**A wrong coefficient in the ellipsoidal area** – In `_ellipsoidal_area` the coefficient of `ep2**3 * k2**2` in `C40` is 90/9009; it must be 80/9009. All the other coefficients are right. On the Earth the error is at most some twenty square centimetres per radian (thm, C175).

**Sides that are never counted** – `count_crossings` visits the sides between consecutive vertices but stops one short: the last side of a line and the closing side of a ring are not compared with the ray. The parity of the count therefore depends on the vertex a ring begins with (thm, C178).

**One position and many** – `sphere_azimuth`, `sphere_distance`, `plane_azimuth` and `plane_distance` accept numbers or sequences, but not both in one call: they raise TypeError; sequences of different lengths are cut to the shortest without a word (thm, C179).

**Hulls that lose a vertex to rounding** – `isleft` compares a rounded cross product with zero. With coordinates of 29 bits (say millimetres over 270 km) the hull of (-2^28, 2^28), (0, 0), (2^27 + 1, 2^27), (2^27 + 2, 2^27 + 1) leaves out the third vertex, which lies outside the polygon returned (thm, C180).

**A distance of zero that raises** – `sphere_distance` passes a rounded sum to `acos` without limiting it to 1. The positions (-pi, y) and (pi, y) are the same, but for some latitudes, such as y = 81/32768, the sum is 1 + 2^-52 and the call raises ValueError (thm, C181). Some four in a hundred latitudes are affected.

**Coordinates of two systems subtracted** – `flat_distances_to` does not look at the coordinate system of the point: for a point in another system it subtracts coordinates of different systems and returns numbers without meaning, where `distances_to` converts (thm, C182). A point with a height and vertices without raise ValueError.

**Poles** – `tile_from_point` raises ValueError for the south pole, where `math.log(0.0)` is called (thm, C183); for the north pole it returns a negative row.

**Rows of tiles at borders** – a latitude of 83.97925949886206 degrees, which is what `nw_corner` returns for tiles of row 1 at zoom level 5, lies just north of the border, in row 0. `tile_from_point` returns row 1, with every C library accurate to a unit in the last place (thm, C183). By the same formula in double precision (computed, not proved) the corner (85.05112877980659) of the single tile at zoom level 0 is looked up in row -1, a row off the map.

**Corners of tiles** – `tile_from_point` does not always return the tile whose corner it is given. For the tiles of row 54351 at zoom level 19, the latitude that `nw_corner` returns is looked up in row 54350, the row to the north, with every C library accurate to a unit in the last place (thm, C184). The fault is not rare: by the same formulas (computed, not proved) 25 of the corners at zoom level 7 are looked up in another row.

**Crossings of short segments on the far side** – `cart2sph` takes a component below 1e-4 for zero, whatever the length of the vector. The product of the poles of two segments shorter than half a degree is shorter than that, so that for such segments the longitude always comes from `asin` and is mirrored into -90..90. A piece of the equator and a piece of a meridian that cross at a longitude between 90 and 180 are not found to cross in one order of the lines and are found in the other (thm, C90).
For longer segments a position in the wrong place can be returned: the equator between longitudes 30 and 150 and a segment inclined by 1/200 degree that crosses it at 135 are said to meet at longitude 45 (thm, C89).

**Names of shapefiles** – `to_shapefile` adds the extension `.shp` where it is missing, as `read_shapefile` does; `write_shapefile` does not, so that
a file written with `write_shapefile("lake", …)` is not the file that `read_shapefile("lake")` opens (thm, C185).

**Shape of grids with several bands** – `grid.values.shape` is `(m, n)` for any number of bands, not `(N, m, n)` as its description says (thm, C186).
