{"id": "C01", "title": "LRU cache is a bounded recency map", "statement": "After any sequence of put/get/peek/promote/clear on a cache with limit m, the cache holds at most m keys, each key at most once; a lookup returns the value of the most recent put of that key; a put that overflows evicts exactly the least recently used key (put, get and promote count as use, peek and exists do not); get/peek/promote of an absent key fails with range_error and changes nothing.", "quantifier": "every operation history, key, value and limit", "why_tests_cant": "The eviction victim depends on the complete history; tests visit a handful of histories.", "anchors": ["core/src/utils/LruCache.hpp:LruCache"]}
{"id": "C02", "title": "String table maps strings to ids and back", "statement": "For every history of getId/getString calls on strings without NUL bytes and ids previously returned by getId: getString(getId(s)) = s, getId(s) always returns the same id, distinct strings get distinct ids, ids are assigned 0,1,2,... in order of first use. Hash collisions and cache evictions do not change any of this.", "quantifier": "every call history, every string, every hash function, every cache content", "why_tests_cant": "Needs all histories including hash collisions and cache eviction patterns.", "anchors": ["core/src/index/StringTable.cpp:getId", "core/src/index/StringTable.cpp:getString", "core/src/index/StringTable.cpp:readString", "core/src/index/StringTable.cpp:writeString"]}
{"id": "C03", "title": "String table survives close and reopen", "statement": "Closing a string table and opening it again on the same path preserves every id: getId and getString answer exactly as they would have without the restart, at any point of any history.", "quantifier": "every call history with any number of restarts at any positions", "why_tests_cant": "Restart may be placed at any point of unboundedly many histories.", "anchors": ["core/src/index/StringTable.cpp:StringTableImpl"]}
{"id": "C04", "title": "String table accepts every string and every id", "statement": "The round trip of C02 holds also for strings containing NUL bytes and after getString was called with ids that are not assigned yet.", "quantifier": "every history with arbitrary strings and ids", "why_tests_cant": "Violated only in unusual histories (look up an id before it exists, embedded NUL), which tests do not visit.", "anchors": ["core/src/index/StringTable.cpp:getString", "core/src/index/StringTable.cpp:writeString"]}
{"id": "C05", "title": "String table after a crash", "statement": "If the process dies at any byte of the on-disk update of a new string, then after reopening all ids assigned before that update still resolve to their strings and no id resolves to a wrong string.", "quantifier": "every history and every crash point (every prefix of the bytes written to the data file and to the index file)", "why_tests_cant": "Crash points cannot be enumerated by unit tests.", "anchors": ["core/src/index/StringTable.cpp:writeString", "core/src/index/StringTable.cpp:StringTableImpl"]}
{"id": "C06", "title": "String table is safe under concurrent callers", "statement": "Any interleaving of getId/getString calls issued by any number of threads gives the answers of some sequential order of the same calls that respects each thread's program order.", "quantifier": "every schedule of every number of threads", "why_tests_cant": "Schedules cannot be enumerated by tests.", "anchors": ["core/src/index/StringTable.cpp:lock_"]}
{"id": "C07", "title": "Element serialisation round-trips", "statement": "Writing an element (node, way, area, relation with nested members) to the element stream and reading it back with the same id returns an equal element (type, tags, coordinates, members, member ids), and leaves the read position exactly behind its bytes, so that concatenated elements are read back independently.", "quantifier": "every element of every nesting depth, any trailing bytes", "why_tests_cant": "Unbounded recursive structure; size fields are 16 bit.", "anchors": ["core/src/index/ElementStream.cpp:write", "core/src/index/ElementStream.cpp:read"]}
{"id": "C08", "title": "Mesh serialisation round-trips", "statement": "Writing a mesh to the mesh stream and reading it back gives the same name, triangles, colors and uv map; vertices and uvs come back as their single-precision roundings and lengths never change.", "quantifier": "every mesh", "why_tests_cant": "All names, lengths and contents.", "anchors": ["core/src/index/MeshStream.cpp:write", "core/src/index/MeshStream.cpp:read"]}
{"id": "C09", "title": "Different tiles never share a file", "statement": "Two different valid tiles (any lods, tile coordinates inside [0,2^lod)) are stored under different file paths, and the path determines the tile.", "quantifier": "every pair of valid tiles", "why_tests_cant": "4^19 tiles per lod.", "anchors": ["core/src/utils/GeoUtils.hpp:quadKeyToString", "core/src/index/PersistentElementStore.cpp:getFilePath", "core/src/builders/MeshCache.cpp:getFilePath"]}
{"id": "C10", "title": "Tile keys are totally ordered", "statement": "The tile comparison used as map order is a strict total order compatible with tile equality, so ordered maps keyed by tile never confuse or lose tiles.", "quantifier": "every triple of tiles", "why_tests_cant": "All triples.", "anchors": ["core/src/QuadKey.hpp:Comparator", "core/src/QuadKey.hpp:operator=="]}
{"id": "C11", "title": "Level-of-detail ranges are validated", "statement": "A lod range can be created exactly when both ends are between 1 and 19; every other pair is rejected by domain_error. Stores iterate exactly the lods start..end.", "quantifier": "every pair of integers", "why_tests_cant": "All pairs of integers.", "anchors": ["core/src/LodRange.hpp:LodRange", "core/src/index/ElementStore.cpp:store"]}
{"id": "C12", "title": "A coordinate lies in the tile computed for it", "statement": "For every coordinate and lod, the tile computed for the coordinate has indices within [0,2^lod) and its bounding box contains the coordinate (up to the documented clamping to the mercator range).", "quantifier": "every coordinate and lod", "why_tests_cant": "Continuous domain.", "anchors": ["core/src/utils/GeoUtils.hpp:GeoCoordinateToQuadKey", "core/src/utils/GeoUtils.hpp:quadKeyToBoundingBox"]}
{"id": "C13", "title": "Tile range enumeration is exact", "statement": "Visiting the tiles of a valid bounding box calls the visitor exactly once for every tile of the lod whose box shares a point with the bounding box, and for no other tile; an invalid box visits nothing.", "quantifier": "every bounding box and lod", "why_tests_cant": "Continuous domain, all boxes and lods.", "anchors": ["core/src/utils/GeoUtils.hpp:visitTileRange", "core/src/BoundingBox.hpp:intersects"]}
{"id": "C14", "title": "Bounding box algebra", "statement": "Expanding the empty box by any list of coordinates gives the smallest box that covers them, independent of order; intersects is symmetric and equals sharing a point for valid boxes; containment is monotone under expansion.", "quantifier": "every list of coordinates and boxes", "why_tests_cant": "All lists.", "anchors": ["core/src/BoundingBox.hpp:expand", "core/src/BoundingBox.hpp:intersects", "core/src/BoundingBox.hpp:contains"]}
{"id": "C15", "title": "In-memory store is an append-only multimap by tile", "statement": "After any history of add/search/erase on the in-memory store, searching a tile delivers exactly the elements added to that tile since it was last erased, in insertion order, each once; other tiles are unaffected; hasData tells whether something was added.", "quantifier": "every operation history", "why_tests_cant": "All histories.", "anchors": ["core/src/index/InMemoryElementStore.cpp"]}
{"id": "C16", "title": "Persistent store behaves like the in-memory store", "statement": "For every history of add/search/erase/flush the persistent store delivers the same elements, in the same order, as the in-memory store.", "quantifier": "every operation history including text searches and cancelled searches", "why_tests_cant": "File positions depend on the whole history of previous calls.", "anchors": ["core/src/index/PersistentElementStore.cpp:store", "core/src/index/PersistentElementStore.cpp:search", "core/src/index/PersistentElementStore.cpp:notify"]}
{"id": "C17", "title": "Persistent store keeps data over restarts", "statement": "Reopening a persistent store on the same directory preserves every tile's elements and text index.", "quantifier": "every history with restarts at any position", "why_tests_cant": "All restart placements.", "anchors": ["core/src/index/PersistentElementStore.cpp:QuadKeyData", "core/src/index/BitmapStream.cpp"]}
{"id": "C18", "title": "Text search returns exactly the matching elements", "statement": "A text query (not, and, or terms) over a tile returns exactly those stored elements whose tokens contain at least one or-term (if or-terms are given), all and-terms, and no not-term, each once, in insertion order.", "quantifier": "every set of stored elements and every query", "why_tests_cant": "All queries on all contents.", "anchors": ["core/src/index/BitmapIndex.cpp:add", "core/src/index/BitmapIndex.cpp:search"]}
{"id": "C19", "title": "Elements are stored in exactly the tiles they touch and the lods they are styled for", "statement": "Adding an element stores it in a tile of a lod iff the stylesheet gives it a non-skipped style at that lod and its bounding box meets the tile (and the caller's tile/box filter accepts); with clipping enabled the stored geometry is its clip to the tile; the return value says whether any tile accepted it.", "quantifier": "every element, stylesheet, lod range", "why_tests_cant": "All elements and stylesheets.", "anchors": ["core/src/index/ElementStore.cpp:store"]}
{"id": "C20", "title": "Geo store dispatches to the registered store", "statement": "Data added under a key goes to the store first registered under this key and to no other; searching a tile visits each registered store which has data for it, once; adding under an unregistered key is rejected.", "quantifier": "every registration/add/search history", "why_tests_cant": "All histories.", "anchors": ["core/src/index/GeoStore.cpp:registerStore", "core/src/index/GeoStore.cpp:add", "core/src/index/GeoStore.cpp:search"]}
{"id": "C21", "title": "Cancelled import leaves no trace", "statement": "If an import into a tile is cancelled, previously stored data are as before and nothing of the cancelled import is visible; cancelling an import over a lod range does not fail.", "quantifier": "every history, every cancellation moment", "why_tests_cant": "Cancellation may come at any moment.", "anchors": ["core/src/index/GeoStore.cpp:add", "core/src/index/PersistentElementStore.cpp:erase"]}
{"id": "C22", "title": "Mesh cache serves only complete tiles", "statement": "A cache hit is reported for a tile only when an earlier build of this tile with this stylesheet finished without cancellation; a crash or cancellation at any moment never produces a hit for partial data.", "quantifier": "every sequential history of builds, every crash and cancellation point", "why_tests_cant": "Crash points.", "anchors": ["core/src/builders/MeshCache.cpp:wrap", "core/src/builders/MeshCache.cpp:unwrap", "core/src/builders/MeshCache.cpp:isCacheHit"]}
{"id": "C23", "title": "Mesh cache replays the build", "statement": "On a hit, fetch delivers the same meshes and elements, in the same order, as the build which filled the cache delivered.", "quantifier": "every sequence of mesh and element callbacks", "why_tests_cant": "All sequences.", "anchors": ["core/src/builders/MeshCache.cpp:fetch", "core/src/builders/MeshCache.cpp:readCache"]}
{"id": "C24", "title": "Mesh cache tolerates concurrent builds", "statement": "Two builds of the same tile which overlap in time do not corrupt each other's cache files or memory.", "quantifier": "every interleaving of wrap/callback/unwrap of any number of builds", "why_tests_cant": "Interleavings.", "anchors": ["core/src/builders/MeshCache.cpp:wrap", "core/src/builders/MeshCache.cpp:unwrap"]}
{"id": "C25", "title": "Mesh pool hands out clean meshes", "statement": "A mesh obtained from the pool is empty and has the requested name, no matter what was released before; a mesh is never handed out twice without being released in between.", "quantifier": "every history of get and release", "why_tests_cant": "All histories.", "anchors": ["core/src/builders/MeshPool.hpp"]}
{"id": "C26", "title": "Each element of a tile is built once per builder and builders complete once", "statement": "While building a tile, every element id is passed to each of its builders at most once even when several stores contain it; each builder is prepared once before its first element and completed once after the last; elements without style are not built.", "quantifier": "every list of visited elements and stylesheet", "why_tests_cant": "All lists of elements.", "anchors": ["core/src/builders/QuadKeyBuilder.cpp:visitElement", "core/src/builders/QuadKeyBuilder.cpp:complete"]}
{"id": "C27", "title": "Clipping keeps identity and tags", "statement": "Clipping an element to a tile yields nothing, or an element with the same id whose leaf elements carry the element's tags; elements completely inside are unchanged, elements without a point of their geometry in the tile yield nothing.", "quantifier": "every element and tile", "why_tests_cant": "All geometries.", "anchors": ["core/src/index/ElementGeometryClipper.cpp"]}
{"id": "C28", "title": "Style cascade", "statement": "The style of an element at a lod contains a declaration iff a matching rule of that lod declares it, and for each key the last matching rule in stylesheet order wins; rules for an explicit element id take precedence.", "quantifier": "every stylesheet, element and lod", "why_tests_cant": "All stylesheets and elements.", "anchors": ["core/src/mapcss/StyleProvider.cpp:buildFromCondition", "core/src/mapcss/Style.hpp:put"]}
{"id": "C29", "title": "Condition matching sees every tag", "statement": "A condition [key], [key=value], [key!=value], [key<number], [key>number] matches an element iff the element has a tag with this key satisfying the comparison, for every element which can enter the library.", "quantifier": "every tag list and condition", "why_tests_cant": "All tag lists, in particular the unsorted ones that enter through the C API.", "anchors": ["core/src/mapcss/StyleProvider.cpp:matchTags", "core/src/utils/ElementUtils.hpp:getTagValue", "core/shared/Storage.hpp:addToStore"]}
{"id": "C30", "title": "Stylesheet tag identifies the stylesheet", "statement": "Different stylesheets get different cache directories, so cached meshes are never served for another stylesheet.", "quantifier": "every pair of stylesheets", "why_tests_cant": "All pairs.", "anchors": ["core/src/mapcss/StyleProvider.cpp:getHashTag"]}
{"id": "C31", "title": "Style expressions", "statement": "A numeric style expression evaluates to the value of its operators applied left to right to the literals and tag values; string expressions concatenate; evaluation never reads outside the expression and unsupported operators are reported.", "quantifier": "every expression and tag environment", "why_tests_cant": "All expressions.", "anchors": ["core/src/mapcss/StyleEvaluator.hpp", "core/src/mapcss/StyleEvaluator.cpp"]}
{"id": "C32", "title": "Color packing is lossless", "statement": "Packing a color into the 32 bit mesh color and unpacking gives the same channels; channels outside 0..255 are clamped.", "quantifier": "every color", "why_tests_cant": "2^32 colors and all out-of-range inputs.", "anchors": ["core/src/mapcss/Color.hpp"]}
{"id": "C33", "title": "Gradient evaluation interpolates", "statement": "Evaluating a gradient at any time returns a color each of whose channels is between those of the two neighbouring stops, the stop's color at its time, the first/last color outside, for every non-empty list of stops.", "quantifier": "every gradient and time", "why_tests_cant": "Continuous domain, all stop lists.", "anchors": ["core/src/mapcss/ColorGradient.hpp:evaluate"]}
{"id": "C34", "title": "OSM ways become ways or areas", "statement": "Every OSM way with all its nodes present becomes an area iff it has more than three node references and first and last coordinate coincide, otherwise a way; areas do not repeat the closing point and are oriented counter-clockwise; the coordinates are those of the referenced nodes.", "quantifier": "every way and node set", "why_tests_cant": "All node lists.", "anchors": ["core/src/formats/osm/OsmDataVisitor.cpp:visitWay"]}
{"id": "C35", "title": "Resolving relations terminates", "statement": "Resolving the relations of any OSM data set terminates and resolves each relation once.", "quantifier": "every membership graph of relations", "why_tests_cant": "Needs all graphs, cyclic ones included.", "anchors": ["core/src/formats/osm/OsmDataVisitor.cpp:resolve", "core/src/formats/osm/RelationProcessor.hpp", "core/src/formats/osm/BuildingProcessor.hpp"]}
{"id": "C36", "title": "Multipolygon rings", "statement": "Ring assembly uses every member way exactly once, joins only ways sharing an end point, and yields closed rings without repeated closing point.", "quantifier": "every list of member ways", "why_tests_cant": "All lists.", "anchors": ["core/src/formats/osm/MultipolygonProcessor.cpp"]}
{"id": "C37", "title": "Merging tags", "statement": "Merging the tags of a relation into those of a member keeps the list sorted and with unique keys, keeps every key of both and never invents a tag.", "quantifier": "every pair of tag lists", "why_tests_cant": "All lists.", "anchors": ["core/src/formats/osm/MultipolygonProcessor.cpp:mergeTags", "core/src/utils/ElementUtils.hpp"]}
{"id": "C38", "title": "L-system rewriting", "statement": "Running an L-system for n generations rewrites each symbol by one of its productions in parallel, leaves symbols without production unchanged, and for deterministic systems yields the n-fold rewriting of the axiom.", "quantifier": "every grammar, axiom, number of generations and random choice", "why_tests_cant": "Unbounded generations and all random choices.", "anchors": ["core/src/lsys/Turtle.cpp:run", "core/src/lsys/Rules.hpp"]}
{"id": "C39", "title": "Turtle save/restore", "statement": "A balanced bracket section leaves the turtle state unchanged, and an L-system whose axiom and productions are bracket balanced never restores from an empty stack, after any number of generations.", "quantifier": "every program and number of generations", "why_tests_cant": "Unbounded programs.", "anchors": ["core/src/lsys/Turtle3d.cpp:save", "core/src/lsys/Turtle3d.cpp:restore"]}
{"id": "C40", "title": "Grid elevation interpolates inside the grid", "statement": "For every coordinate inside the tile the interpolated elevation lies between the minimum and maximum of the four surrounding samples, equals the sample at grid nodes, and never reads outside the height array.", "quantifier": "every height array and coordinate", "why_tests_cant": "Continuous domain.", "anchors": ["core/src/heightmap/GridElevationProvider.hpp:getElevation"]}
{"id": "C41", "title": "SRTM heights are decoded correctly", "statement": "The height returned for a coordinate is computed from the samples stored in the cell file which covers the coordinate, with the sample values as written in the file, never reading outside of it.", "quantifier": "every cell file and coordinate", "why_tests_cant": "All 65536 sample values, all coordinates, all hemispheres.", "anchors": ["core/src/heightmap/SrtmElevationProvider.hpp"]}
{"id": "C42", "title": "Splitting lines by grid", "statement": "Splitting a segment by the terrain grid returns points of the segment, starting at its start, ordered along it, such that no two consecutive points are separated by a grid line.", "quantifier": "every segment and cell size", "why_tests_cant": "Continuous domain.", "anchors": ["core/src/builders/terrain/LineGridSplitter.hpp"]}
{"id": "C43", "title": "Meshes are well formed", "statement": "After any sequence of mesh construction operations every triangle index refers to an existing vertex, there is one color and one uv pair per vertex, and index and vertex arrays have lengths divisible by three.", "quantifier": "every sequence of operations", "why_tests_cant": "All sequences.", "anchors": ["core/src/builders/MeshBuilder.cpp", "core/src/utils/MeshUtils.hpp"]}
{"id": "C44", "title": "Texture map partitions the uvs", "statement": "The texture map consists of 8-entry records whose end offsets are non-decreasing and bounded by the uv count, the last one being the uv count when written; copying a mesh keeps this.", "quantifier": "every sequence of operations", "why_tests_cant": "All sequences.", "anchors": ["core/src/builders/MeshBuilder.cpp:writeTextureMappingInfo", "core/src/utils/MeshUtils.hpp:copyMesh"]}
{"id": "C45", "title": "Polygons are closed", "statement": "After adding any contours and holes, each contour's segments form one closed cycle over exactly its points, in valid index range.", "quantifier": "every list of contours", "why_tests_cant": "All lists.", "anchors": ["core/src/math/Polygon.hpp:addContour"]}
{"id": "C46", "title": "Bounding rectangles", "statement": "The rectangle grown from a list of points is the smallest rectangle which contains them.", "quantifier": "every list of points, in all quadrants", "why_tests_cant": "Fails only for particular quadrants.", "anchors": ["core/src/math/Rectangle.hpp:expand"]}
{"id": "C47", "title": "Color parsing", "statement": "#rrggbb in either case parses to the color with these channels, other hex lengths shorter than six digits are rejected, unknown names give grey.", "quantifier": "every string", "why_tests_cant": "All strings.", "anchors": ["core/src/utils/GradientUtils.cpp:parseColor"]}
{"id": "C48", "title": "Sphere refinement level", "statement": "A sphere requested with recursion level n consists of 20*4^n triangles (12*4^n for a semi-sphere).", "quantifier": "every level", "why_tests_cant": "All levels.", "anchors": ["core/src/builders/generators/IcoSphereGenerator.cpp:generate"]}
{"id": "C49", "title": "PBF delta decoding", "statement": "Dense nodes, way references and relation members are decoded to the absolute values which the encoder delta coded.", "quantifier": "every sequence of values, every offset and granularity", "why_tests_cant": "All sequences; offsets are usually zero in test files.", "anchors": ["core/src/formats/osm/pbf/OsmPbfParser.hpp:parsePrimitiveBlock"]}
{"id": "C50", "title": "Shape polygon parts", "statement": "A shape polygon with n parts is split in exactly these parts, each vertex in the part containing its index, without reading outside the part table.", "quantifier": "every part table", "why_tests_cant": "All tables.", "anchors": ["core/src/formats/shape/ShapeParser.hpp:visitPolygon"]}
{"id": "C51", "title": "C API reports errors instead of propagating", "statement": "Every exception raised by a data call is delivered to the error callback and none escapes the C boundary; element geometry is classified as node, way or area by its vertices.", "quantifier": "every argument tuple", "why_tests_cant": "All argument values.", "anchors": ["core/shared/Search.hpp:getDataByText", "core/shared/Storage.hpp:addToStore", "core/shared/Common.hpp:safeExecute"]}
{"id": "C52", "title": "Data directories exist for all accepted lods", "statement": "For every lod accepted by the API a data directory is created when a store is registered.", "quantifier": "every lod", "why_tests_cant": "All lods.", "anchors": ["core/shared/Configuration.hpp:createDataDirs", "core/src/LodRange.hpp"]}
{"id": "C53", "title": "String helpers", "statement": "Splitting a string by a delimiter and joining by it gives the string back; endsWith is true exactly for suffixes; the file name helper strips directory and last extension.", "quantifier": "every string", "why_tests_cant": "All strings.", "anchors": ["core/src/utils/CoreUtils.hpp"]}
{"id": "C54", "title": "Rotations preserve length", "statement": "Rotating a vector by a (non-zero) quaternion preserves lengths and composing rotations by the product equals rotating twice.", "quantifier": "every quaternion and vector", "why_tests_cant": "Continuous domain.", "anchors": ["core/src/math/Quaternion.hpp"]}
{"id": "C55", "title": "Segment intersection", "statement": "The reported intersection parameter is in [0,1] and the point is on both segments; none is reported iff the segments are parallel or do not meet.", "quantifier": "every pair of segments", "why_tests_cant": "Continuous domain.", "anchors": ["core/src/utils/GeometryUtils.hpp:getIntersection"]}
{"id": "C56", "title": "Bitmap persistence", "statement": "Writing the text index of a tile and reading it back gives the same token to elements relation.", "quantifier": "every index content", "why_tests_cant": "All contents.", "anchors": ["core/src/index/BitmapStream.cpp"]}
{"id": "C57", "title": "Forest chunks", "statement": "Forest generation places one tree for each n-th triangle of its region and delivers them in chunks of at most the configured size, none lost or duplicated.", "quantifier": "every region, frequency and chunk size", "why_tests_cant": "All sizes.", "anchors": ["core/src/builders/terrain/TerraExtras.cpp:addForest"]}
{"id": "C58", "title": "GeoJSON features", "statement": "Closed rings become areas, open ones ways; a polygon of one ring is delivered as that element with the feature's id and tags, otherwise as relation; points are longitude first; tags are sorted.", "quantifier": "every feature", "why_tests_cant": "All features.", "anchors": ["core/src/formats/osm/json/OsmJsonParser.hpp"]}
{"id": "C59", "title": "Compressed bitmaps", "statement": "Setting increasing positions in the compressed bitmap and enumerating gives exactly these positions; and/or/xor act pointwise; setting a smaller position is refused.", "quantifier": "every increasing list of positions", "why_tests_cant": "All lists.", "anchors": ["core/lib/ewah/ewah.h"]}
{"id": "C60", "title": "Stylesheet parsing", "statement": "Selector zoom ranges are parsed to the lods written in the stylesheet; malformed stylesheets are rejected.", "quantifier": "every stylesheet text", "why_tests_cant": "All texts.", "anchors": ["core/src/mapcss/MapCssParser.cpp"]}
{"id": "C61", "title": "Relation members", "statement": "After an import a relation contains every member that is present in the data, apart from relations which name it as their own member.", "quantifier": "every membership graph and every order of resolution", "why_tests_cant": "All graphs and orders.", "anchors": ["core/src/formats/osm/RelationProcessor.hpp", "core/src/utils/ElementUtils.hpp"]}
{"id": "C62", "title": "Turtle orientation", "statement": "Every turtle command keeps direction and right vector perpendicular unit vectors, and pitch and roll turn the turtle out of its plane.", "quantifier": "every program", "why_tests_cant": "All programs.", "anchors": ["core/src/lsys/Turtle3d.cpp"]}
{"id": "C63", "title": "Spherical interpolation", "statement": "Interpolating between two unit quaternions gives unit quaternions, the first at 0 and the second at 1.", "quantifier": "every pair of unit quaternions and parameter", "why_tests_cant": "Continuous domain.", "anchors": ["core/src/math/Quaternion.hpp:slerp"]}
{"id": "C64", "title": "Border detection", "statement": "A point of a tile is reported to be on the border of the tile exactly if it lies on it.", "quantifier": "every tile and point", "why_tests_cant": "Continuous domain.", "anchors": ["core/src/math/Rectangle.hpp:isOnBorder", "core/src/math/LineLinear.hpp:contains"]}
{"id": "C65", "title": "Spheres and cylinders are closed", "statement": "The triangles generated for a sphere, a cylinder or a cone form a surface without border: every edge is used as often in one direction as in the other.", "quantifier": "every refinement level, segment count and size", "why_tests_cant": "All levels and segment counts.", "anchors": ["core/src/builders/generators/IcoSphereGenerator.cpp:generate", "core/src/builders/generators/CylinderGenerator.hpp:generate", "core/src/builders/generators/AbstractGenerator.hpp:addTriangle"]}
{"id": "C66", "title": "Shape points and lines", "statement": "A shape point is delivered as node, a polyline with all its parts and vertices in order, as area if closed and as way otherwise.", "quantifier": "every shape record", "why_tests_cant": "All records.", "anchors": ["core/src/formats/shape/ShapeParser.hpp:visitArc", "core/src/formats/shape/ShapeParser.hpp:visitPoint", "core/src/formats/shape/ShapeDataVisitor.hpp"]}
{"id": "C67", "title": "Exported elements", "statement": "Elements found by a search are passed to the callback with their id, their tags as text, their vertices as longitude, latitude and height, and the declarations of the style; every string is valid while the callback runs.", "quantifier": "every sequence of elements", "why_tests_cant": "All elements and sequences; validity of pointers.", "anchors": ["core/shared/Search.hpp:ExportElementVisitor"]}
{"id": "C68", "title": "Point in polygon", "statement": "A point which is not on the border of the triangles spanned by the first point and the edges of a ring is reported inside exactly if an odd number of these triangles contain it.", "quantifier": "every ring and point", "why_tests_cant": "Continuous domain.", "anchors": ["core/src/utils/GeoUtils.hpp:isPointInPolygon", "core/src/math/Polygon.hpp:isPointInPolygon", "core/src/formats/osm/MultipolygonProcessor.cpp:containsRing"]}
{"id": "C69", "title": "Metres and degrees agree on the globe", "statement": "The distance between two coordinates is the length of the shorter arc between them on a globe whose radius lies between the polar and the equatorial radius; it is symmetric and zero only for the same place; an offset in metres converted to degrees moves a point by that distance, and so do metres north and east of a point.", "quantifier": "for all coordinates and all offsets up to half of the globe", "why_tests_cant": "trigonometric functions on all coordinates; errors depend on the latitude", "anchors": ["core/src/utils/GeoUtils.hpp:33-40", "core/src/utils/GeoUtils.hpp:104-132", "core/src/utils/GeoUtils.hpp:163-174"]}
{"id": "C70", "title": "Style values mean what their dimension says", "statement": "A declared value in metres is the number of metres, or for a bounding box the difference of latitudes of that many metres; a value in percent is that part of the given size; a value without dimension is the number it spells; text values are returned as written and keys which are not declared give zero and the empty text.", "quantifier": "for all stylesheet values, keys, sizes and bounding boxes", "why_tests_cant": "values are free text and the result depends on the place of the element on the globe", "anchors": ["core/src/mapcss/Style.hpp:94-157", "core/src/mapcss/StyleDeclaration.hpp:19-58", "core/src/utils/CoreUtils.hpp:55-62"]}
{"id": "C71", "title": "Opposite turtle commands undo each other", "statement": "Turning left and right, turning around twice, pitching up and down, rolling left and right, making wider and thinner, and making longer and shorter bring the turtle back to its state; going forward moves it by its length in its direction; each switch of the style takes the next appearance.", "quantifier": "for all states, angles and scales", "why_tests_cant": "needs exact rotations for every frame and angle", "anchors": ["core/src/lsys/Turtle3d.cpp:11-87", "core/src/builders/generators/LSystemGenerator.cpp:88-141"]}
{"id": "C72", "title": "Every node and way of an OSM file is imported once", "statement": "Reading a file hands every node and every way to the store exactly once: nodes at their place, ways and areas with the places of the nodes they name, all with their tags; of nodes with the same id the last one counts.", "quantifier": "for all files", "why_tests_cant": "needs all files and all orders of entries", "anchors": ["core/src/formats/osm/OsmDataVisitor.cpp:22-56", "core/src/formats/osm/OsmDataVisitor.cpp:99-127", "core/src/formats/osm/xml/OsmXmlParser.cpp:247-266"]}
{"id": "C73", "title": "Meshes show what was added", "statement": "What the renderer draws from a mesh (three indices after the other, looked up in vertices, colors and texture coordinates) is what the operations added, in this order: a plane shows the wall between its points from bottom to top, a triangle its corners, a polygon the triangles of the triangle library at their points all with the same side, a copy the moved triangles of its source; what was shown before stays.", "quantifier": "every mesh and operation (front sides)", "why_tests_cant": "Tests count vertices and indices, they do not look at the triangles.", "anchors": ["core/src/builders/MeshBuilder.cpp", "core/src/utils/MeshUtils.hpp:copyMesh"]}
{"id": "C74", "title": "Each building is one mesh with all of its parts", "statement": "From the elements of a tile the callback gets one mesh for each building and each relation which is not marked as part of another one, in their order and with their ids: its parts are the areas which are buildings, the multipolygons (with all their rings, holes are the rings with negative area), and the parts of the members of other relations; each part is drawn with a polygon of its own, whatever was drawn before.", "quantifier": "every list of elements, relations nested to any depth, every style", "why_tests_cant": "The builder keeps polygon, mesh and id in members which are shared by nested visitors; tests use one or two levels.", "anchors": ["core/src/builders/buildings/BuildingBuilder.cpp"]}
{"id": "C75", "title": "A part of a building has its roof, floor and walls", "statement": "A part shows its roof (none, flat or a pyramid above each outline) at the top, a floor at the bottom if it begins above the ground, and one wall for each edge of each outline and hole from bottom to top; bottom and top are its minimal height and height (10 if it is zero) above the ground at its first point.", "quantifier": "every part with non-empty rings, flat, pyramidal or no roof and flat walls", "why_tests_cant": "Tests only count vertices; loops run over index ranges backwards and wrap around.", "anchors": ["core/src/builders/buildings/BuildingBuilder.cpp:build", "core/src/builders/buildings/facades/FlatFacadeBuilder.hpp", "core/src/builders/buildings/roofs/FlatRoofBuilder.hpp", "core/src/builders/buildings/roofs/PyramidalRoofBuilder.hpp"]}
{"id": "C76", "title": "Buildings are closed surfaces", "statement": "Roof, floor and walls of a part fit together without gaps: each edge is used as often in one direction as in the other.", "quantifier": "every building whose parts are above the ground and whose rings are filled by the triangle library", "why_tests_cant": "A global property of all triangles of any polygon with holes; tests count triangles.", "anchors": ["core/src/builders/buildings/BuildingBuilder.cpp", "core/src/builders/MeshBuilder.cpp"]}
{"id": "C77", "title": "Tags are found", "statement": "A lookup by key returns the value of a tag with this key, and the default only if there is none; an element has a tag exactly if it is there; marked parts of buildings are recognised.", "quantifier": "every list of tags in the order of their keys", "why_tests_cant": "Binary search over lists of any length.", "anchors": ["core/src/utils/ElementUtils.hpp:getTagValue", "core/src/formats/osm/BuildingProcessor.hpp"]}
{"id": "C78", "title": "Spheres and cylinders have the requested shape", "statement": "A sphere is built from a regular icosahedron; all corners of its triangles lie on the ellipsoid with the requested centre and size and all triangles face outwards. The corners of a cylinder lie on its axis and on rings around it whose radii go from the first size to the second, and it has exactly the triangles of its segments and of its caps, a cone having no top cap. Vertex noise moves triangles as a whole.", "quantifier": "all centres, sizes, levels, numbers of segments, translations and noise functions", "why_tests_cant": "Tests count vertices of one sphere; a wrong vertex, an unnormalised middle point or a flipped face keeps the count.", "anchors": ["core/src/builders/generators/IcoSphereGenerator.cpp:16-152", "core/src/builders/generators/CylinderGenerator.hpp:60-111", "core/src/builders/generators/AbstractGenerator.hpp:63-79"]}
{"id": "C79", "title": "Noise is bounded and has no steps", "statement": "The noise which moves heights and selects colors stays between -1 and 1, never reads outside of its tables, is zero at the points of its lattice and without frequency, and is a continuous function of the coordinates; so color gradients are evaluated between 0 and 1 only.", "quantifier": "all coordinates whose products with the frequency fit into an int, all frequencies", "why_tests_cant": "A bound and continuity over a continuum of points cannot be sampled; the tests compare three values of the three dimensional noise, which is not used.", "anchors": ["core/src/utils/NoiseUtils.cpp:8-113", "core/src/utils/NoiseUtils.hpp:26-32", "core/src/utils/GradientUtils.hpp:37-41", "core/src/builders/MeshBuilder.cpp:202-211"]}
{"id": "C80", "title": "Trees and lamps stand along ways", "statement": "Each node of a tree or lamp gets its object on the ground at its place. Each way gets one mesh with copies of the object which stand on the ground: along each part of the way as many as fit with the requested step, at equal distances, or, for lamps of streets with a width, alternating at that distance to the left and to the right. Members of relations are treated the same, meshes arrive in the order of the elements.", "quantifier": "every list of elements with relations nested to any depth, every step and width, every object, every terrain", "why_tests_cant": "Tests check that a callback is called; positions depend on lengths of ways, terrain and the copied object.", "anchors": ["core/src/utils/MeshUtils.hpp:45-61", "core/src/builders/poi/TreeBuilder.cpp", "core/src/builders/misc/LampBuilder.cpp"]}
{"id": "C81", "title": "Walls are rows of boxes", "statement": "A wall along a way is a row of boxes: the first begins where the way begins, boxes and gaps have at least the requested length and at most twice of it, a short part gets one box. The corners of each box are beside its ends at the requested distance and on the ground, its sides face outwards, its top upwards, and with the bottom it is closed.", "quantifier": "every way, length, gap, width, height and terrain", "why_tests_cant": "A geometric property of all triangles; tests count vertices.", "anchors": ["core/src/builders/generators/WallGenerator.hpp"]}
{"id": "C82", "title": "Each barrier gets its pillars or its wall", "statement": "Each node, way and area which is a barrier gets one mesh with pillars or a wall on the ground along its coordinates, in order; all members of a relation get the style of the outermost relation, whatever was built before.", "quantifier": "every list of elements with relations nested to any depth, every style and terrain", "why_tests_cant": "The builder keeps the style in a member shared by nested visits.", "anchors": ["core/src/builders/misc/BarrierBuilder.cpp", "core/src/builders/misc/BarrierBuilder.hpp"]}
{"id": "C83", "title": "The terrain has no gaps and no overlaps", "statement": "Every point of a tile is on exactly one piece of the terrain surface, whichever regions of roads, water and land lie over each other: each region is cut by those before it and the background fills the rest.", "quantifier": "every list of layers and regions with any paths, every point of the tile", "why_tests_cant": "The pieces come from a clipper whose subjects turn into clips step by step, for any number of overlapping regions.", "anchors": ["core/src/builders/terrain/SurfaceGenerator.cpp", "core/src/builders/terrain/TerraGenerator.cpp", "core/lib/clipper/clipper.cpp"]}
{"id": "C84", "title": "The terrain shows the element of the highest layer", "statement": "At each point of a tile the terrain shows the element around this point whose layer has the highest sort order, with the style of its layer (or its own, with order zero, if it has no layer), and the background where there is no element; members of relations without tags count with the tags of the relation.", "quantifier": "every list of elements with relations nested to any depth, every style, every point of the tile", "why_tests_cant": "Regions pass through a map of layers, merging by level and two sorts, and overlap in any way.", "anchors": ["core/src/builders/terrain/TerraBuilder.cpp", "core/src/builders/terrain/RegionTypes.hpp"]}
{"id": "C85", "title": "The terrain meshes show each piece on the ground with its texture", "statement": "The meshes of a tile are, piece by piece, the extras and the own mesh of a piece with its surface, and in the end the common surface mesh, which shows the surfaces of all other pieces at ground height plus the height offset of their style and the walls down to the ground along their sides except at the border of the tile, each with the texture of its piece; paths below the area tolerance are left out.", "quantifier": "every list of layers and regions, every clipping and triangulation result with valid indices", "why_tests_cant": "Meshes, texture records and extras are threaded through nested loops over regions, paths and sides.", "anchors": ["core/src/builders/terrain/TerraGenerator.cpp", "core/src/builders/terrain/SurfaceGenerator.cpp", "core/src/builders/MeshBuilder.cpp"]}
{"id": "C86", "title": "A round roof is a vault over the outline", "statement": "The round roof of a building part without holes is, above each outline with four corners and parallel ends, a vault between half ellipses over its ends which rise from the top of the walls to the height of the roof; its sides are a longest side of the outline and the opposite one, with the direction across the other two; it has no gaps, and its border are the edges of the outline. Above an outline with holes the roof is flat.", "quantifier": "every outline, every height and direction, every building part", "why_tests_cant": "The points come from rotations by interpolated quaternions for each step between the ends, starting from whatever side is longest.", "anchors": ["core/src/builders/buildings/roofs/RoundRoofBuilder.hpp", "core/src/math/Quaternion.hpp", "core/src/builders/buildings/BuildingBuilder.cpp"]}
{"id": "C87", "title": "A mansard roof has sides up to a smaller flat part", "statement": "The mansard roof of a building part with one outline is a flat part at the height of the roof, over the outline moved inside by the clipping library (by a tenth of the shortest side), and two triangles from each edge of the outline to the edge of the flat part next to it; it has no gaps, and its border are the edges of the outline. If the library returns no outline, several ones or one with another number of corners, then the roof is flat.", "quantifier": "every outline and height, every answer of the clipping library", "why_tests_cant": "The corners of the smaller outline have to be matched with those of the outline, wherever the library begins and in whatever direction it runs.", "anchors": ["core/src/builders/buildings/roofs/MansardRoofBuilder.hpp", "core/src/builders/buildings/BuildingBuilder.cpp"]}
{"id": "C88", "title": "A skillion roof is one tilted plane", "statement": "The skillion roof of a building part with one outline is one plane: it begins at the top of the walls at the side where the line through the middle in the direction of the roof leaves the outline, and has its full height at the corner next to where this line enters it; nothing is below or above. Walls below the other sides close it: the border of the roof are the edges of the outline. If the line does not leave the outline, the roof is flat. Names of directions mean multiples of 22.5 degrees.", "quantifier": "every outline, height and direction", "why_tests_cant": "The plane depends on the crossings of all sides with a line, and the triangles come from a mesh whose heights are changed afterwards.", "anchors": ["core/src/builders/buildings/roofs/SkillionRoofBuilder.hpp", "core/src/utils/GeometryUtils.hpp", "core/src/utils/MeshUtils.hpp", "core/src/builders/buildings/BuildingBuilder.cpp"]}
{"id": "C89", "title": "Domes, cylinders and spheres of buildings are round bodies around their outlines", "statement": "A dome roof is, for each outline, a part of a sphere in the smallest rectangle around the outline, on top of the walls; a cylinder facade is a closed prism with seven sides in this rectangle from the bottom to the top of the part, in storeys of at most five meters; a sphere facade is a closed sphere in the smallest rectangle around all outlines. All of their triangles face outwards and show the texture of the roof or the facade.", "quantifier": "every part with any outlines, heights and looks", "why_tests_cant": "The shape comes from refinement, rotations and rectangles; tests look at vertex counts of a few buildings.", "anchors": ["core/src/builders/buildings/roofs/DomeRoofBuilder.hpp", "core/src/builders/buildings/facades/CylinderFacadeBuilder.hpp", "core/src/builders/buildings/facades/SphereFacadeBuilder.hpp", "core/src/builders/generators/CylinderGenerator.hpp", "core/src/builders/generators/IcoSphereGenerator.cpp", "core/src/utils/GeometryUtils.hpp"]}
{"id": "C90", "title": "L-systems are drawn as their commands say", "statement": "Each cylinder (or step forward), cone and sphere command of an L-system adds one closed body at the place of the turtle, with its direction, width and length, in meters east of, above and north of the position of the element; the bodies come in the order of the commands, with color and texture of the appearance of the state of the turtle (spheres: the next one). The appearances come from the comma separated lists of the style, one for each color. Unknown words and brackets without partner stop the drawing.", "quantifier": "every L-system, style lists, position, elevation and random choice", "why_tests_cant": "Programs and nested brackets are unbounded; tests draw a few fixed systems and count nothing but success.", "anchors": ["core/src/builders/generators/LSystemGenerator.cpp", "core/src/builders/generators/LSystemGenerator.hpp", "core/src/lsys/Turtle3d.cpp", "core/src/builders/generators/CylinderGenerator.hpp", "core/src/builders/generators/IcoSphereGenerator.cpp"]}
{"id": "C91", "title": "Texts of L-systems are read as what they say", "statement": "A text of an L-system (generations, angle, scale and first rules, then one production for each line, with blanks between the parts, a probability in brackets or one, and comments up to the end of a line) is read as this L-system and no other; other texts are refused with an exception. Violated: a comment behind the first rules joins the next line to them, what follows an empty line or an unknown character is silently dropped, words beginning with F or G are split.", "quantifier": "every text and every L-system", "why_tests_cant": "The grammar accepts infinitely many texts, and which ones it accepts by mistake can only be said by describing all of them; tests read four texts.", "anchors": ["core/src/lsys/LSystemParser.cpp", "core/src/lsys/LSystem.hpp"]}
{"id": "C92", "title": "Textures are the regions of the atlas", "statement": "A text of a texture atlas (index, width, height, then one region name,x,y,width,height for each texture) is read as this atlas; each name and seed gives one of the regions of this name, in turn, with the numbers of the text, an unknown name or index gives no texture, and each region is reached by some seed. Other texts are refused. Violated: what follows a broken region is silently dropped, numbers outside of 16 bits are converted with undefined behaviour, an atlas with index 65535 or an index which was used before is ignored.", "quantifier": "every text, list of atlases, index, name and seed", "why_tests_cant": "The grammar accepts infinitely many texts, lookups depend on all regions of a name; the tests only count that one atlas was read.", "anchors": ["core/src/mapcss/TextureAtlasParser.cpp", "core/src/mapcss/StyleSheet.hpp", "core/src/mapcss/StyleProvider.cpp"]}
{"id": "C93", "title": "OSM files in XML are read as they are written", "statement": "From a file which is written as expected (declaration, osm, notes, bounds, nodes, ways, relations, with any attributes between) the visitor is told about all elements, in their order, with all coordinates, tags, references and members, and about nothing else. Whatever the text is, also when it is refused, the visitor is told only about elements which are written in a begin of the text, none left out, doubled or reordered; the only failure is the reported one. Violated: escaped characters are not decoded, ways before the first node are silently lost, and empty attributes, comments, ways without nodes, relations without members or the absence of nodes and bounds make the whole file refused, after the elements before have been delivered.", "quantifier": "every text, every list of elements, every gap with attributes", "why_tests_cant": "The grammar accepts infinitely many texts and the skipper of attributes interacts with every literal; the tests read one good file and a few small strings.", "anchors": ["core/src/formats/osm/xml/OsmXmlParser.cpp", "core/src/formats/osm/xml/OsmXmlParser.hpp"]}
{"id": "C94", "title": "Builds through the mesh cache deliver what builds without it deliver", "statement": "Whatever builds, cancellations, disk errors, restarts and changes of the switch went before: a build of a tile which is not in the cache delivers with every call exactly what it delivers without cache; a build of a tile which is in the cache delivers, in the same order and with meshes in single precision, what the build which filled the file delivered; with the cache switched off the files have no influence. Violated: nothing ever refreshes a file: data added later and another choice of elevation data are ignored; after an exception of a builder the next build of the tile has undefined behaviour.", "quantifier": "every builder, every interleaving of builds of different tiles, every list of elements", "why_tests_cant": "Staleness and interference appear only in sequences of builds with changes between them; the tests use one build and one fetch of one mesh.", "anchors": ["core/src/builders/CacheBuilder.hpp", "core/src/builders/MeshCache.cpp", "core/src/builders/QuadKeyBuilder.cpp", "core/shared/Configuration.hpp", "core/shared/Search.hpp"]}
{"id": "C95", "title": "An imported OSM file is what the tiles show", "statement": "Importing an OSM XML text into a store, for a range of levels, a tile or a box: afterwards a search of any tile delivers what it delivered before and, each once, exactly the nodes and ways which are written in the text, belong to the import, are wanted by the stylesheet and meet the tile: with their tags, the places of their nodes, rings as areas turned counter-clockwise, clipped if the stylesheet says so. Other stores are not changed. A text which is refused leaves everything as it was. Violated: a way with a node which is not in the file is undefined behaviour instead of a refusal.", "quantifier": "every well-formed text without relations, every refused text, every tile, every stylesheet decision, every previous content of the stores", "why_tests_cant": "The path goes through grammar, visitor, hash maps, tile ranges, clipper and index; tests check single stages with one small file.", "anchors": ["core/src/index/GeoStore.cpp", "core/src/formats/osm/xml/OsmXmlParser.cpp", "core/src/formats/osm/OsmDataVisitor.cpp", "core/src/index/ElementStore.cpp", "core/src/index/InMemoryElementStore.cpp"]}
{"id": "C96", "title": "The relations of a file become the elements they describe", "statement": "When all entries of an OSM file are read, exactly one element is handed on for each node, way, area and relation, with the same result whatever the order in which the hash map lists the relations: a multipolygon has the areas which its lines form, and, if it has no tags of its own, the tags of its outer areas; a building has its parts but not its outlines; any other relation has the elements it names, each number once, but no relation which names it. Exactly the elements which building relations name are hidden, that is drawn only as parts of the building. Violated: if the outline of a building is the outer line of a multipolygon without tags, whether the multipolygon is hidden depends on the order of the hash map; a building relation which names only its outline is not drawn at all.", "quantifier": "every file whose relations are acyclic, can be assembled, and where buildings and multipolygons named by other relations have all their members; every order of the relations; every sufficient stack", "why_tests_cant": "The order of a hash map is fixed on one platform, so tests see one order only; recursion over shared elements has no bound.", "anchors": ["core/src/formats/osm/OsmDataVisitor.cpp", "core/src/formats/osm/RelationProcessor.hpp", "core/src/formats/osm/BuildingProcessor.hpp", "core/src/formats/osm/MultipolygonProcessor.cpp", "core/src/builders/buildings/BuildingBuilder.cpp"]}
{"id": "C97", "title": "Importing an OSM file with relations stores what becomes of them", "statement": "A well-formed OSM XML file with relations is imported: when it is read, the maps of the visitor hold exactly the nodes, ways and relations which are written in the file. If its relations can be resolved (C96), every tile shows afterwards, besides what it has shown before, exactly what becomes of the nodes, ways and relations and belongs to the tile, each once and clipped as the stylesheet wants; the result does not depend on the order in which a hash map lists the relations, and stores under other keys are as before.", "quantifier": "every text of a well-formed file, every set of stores and earlier imports, every target and tile, every order of the relations, every sufficient stack, every clipping library and stylesheet", "why_tests_cant": "A test imports a few files; this covers the whole way from the text to the tiles for all of them.", "anchors": ["core/src/index/GeoStore.cpp", "core/src/formats/osm/xml/OsmXmlParser.cpp", "core/src/formats/osm/OsmDataVisitor.cpp", "core/src/index/ElementStore.cpp", "core/src/formats/osm/MultipolygonProcessor.cpp"]}
{"id": "C98", "title": "Builders get exactly what the stylesheet says of an imported file", "statement": "A stylesheet text and an OSM XML text are read, the file is imported with the stylesheet, and a tile is loaded: every builder gets exactly the elements which were in the tile before or which the file adds to it (unless skipped, clipped if wanted) and for which the rules written in the stylesheet name this builder; each once, between one prepare and one complete.", "quantifier": "every text of a stylesheet, every text of an OSM file, every set of in-memory stores and earlier imports, every target and tile, every builder, every order of hash maps", "why_tests_cant": "A test loads a few tiles of a few files with one stylesheet; this covers the way from both texts to the calls of builders for all of them.", "anchors": ["core/shared/Application.hpp", "core/src/mapcss/MapCssParser.cpp", "core/src/mapcss/StyleProvider.cpp", "core/src/index/ElementStore.cpp", "core/src/index/GeoStore.cpp", "core/src/builders/QuadKeyBuilder.cpp"]}
{"id": "C99", "title": "Surfaces look as their style says, and those of neighbouring tiles fit together", "statement": "Every point which is added to a surface is drawn at its place, at the height of the ground plus the offset (exactly on the border of the surface, elsewhere at most one unit of noise away), in a color of its gradient which depends continuously on the place only, and with the part of the tile as texture coordinate. A point on the common border of two tiles therefore has the same height and color in both, and the texture goes on. Walls and triangles stand where they were put, in a color of the gradient which depends on the place only.", "quantifier": "every tile, place, gradient, frequency, elevation, texture scale, every output of the triangle library, every mesh which is added to", "why_tests_cant": "Tests look at counts of vertices; seams between tiles appear at single places of single neighbours.", "anchors": ["core/src/builders/MeshBuilder.cpp", "core/src/builders/MeshBuilder.hpp", "core/src/utils/GradientUtils.hpp", "core/src/utils/NoiseUtils.cpp", "core/src/mapcss/ColorGradient.hpp", "core/src/utils/GeoUtils.hpp"]}
{"id": "C100", "title": "What was imported is there after a restart", "statement": "When an OSM file was imported into a store on disk and the program is started again, with the stores registered again in any order, every tile shows exactly what it has shown before the import and what is to be seen of the nodes, ways and relations of the file, however often tiles are searched; builders get exactly the elements for which the rules of the stylesheet name them.", "quantifier": "every file which can be read and resolved, every stylesheet which is accepted, every history of the stores before the import, every order of registering, every sequence of searched tiles", "why_tests_cant": "Tests import small files and search in the same process; the byte formats, positions of open files and the cache of open tiles matter only in long histories.", "anchors": ["core/src/index/PersistentElementStore.cpp", "core/src/index/GeoStore.cpp", "core/src/index/ElementStream.cpp", "core/shared/Configuration.hpp", "core/src/formats/osm/xml/OsmXmlParser.cpp", "core/src/QuadKeyBuilder.cpp"]}
{"id": "C101", "title": "Tiles of a store on disk can be searched by several threads", "statement": "When several threads search tiles of a store on disk at the same time, every thread gets for every tile exactly the elements which the tile holds, in the order in which they were saved.", "quantifier": "every history of the store which C16 covers, every number of threads, every list of tiles per thread, every order in which the threads take steps", "why_tests_cant": "Unit tests search with one thread. The open files of a tile and their positions are shared by all threads which use the tile, only the cache of open tiles is behind a lock; whether a search is disturbed depends on the order of steps, of which tests see a few, and on which tiles the cache has dropped.", "anchors": ["core/src/index/PersistentElementStore.cpp:148-164", "core/src/index/PersistentElementStore.cpp:208-219", "core/src/utils/LruCache.hpp:23-56"]}
{"id": "C102", "title": "A text search finds what was imported", "statement": "A text search for a box and a range of levels finds every element of every store which matches the words and whose box meets the given one, and nothing else; after the import of a file it finds in addition exactly what is seen of the elements of the file, by the words which are written in their tags.", "quantifier": "every query, box and range of levels, every number of stores, every text of an OSM file with any relations, any stylesheet", "why_tests_cant": "Tests search a handful of elements in one store by single words. What is found depends on the cooperation of the parser, the relations, the tiles of elements and levels, the clipping, the bitmaps per tile and the box test; each has its own boundary cases.", "anchors": ["core/src/index/GeoStore.cpp:118-128", "core/src/index/InMemoryElementStore.cpp:69-101", "core/src/index/BitmapIndex.cpp:38-70", "core/src/index/ElementGeometryVisitor.hpp:28-44"]}
{"id": "C103", "title": "A map can be imported as XML or as PBF", "statement": "Importing a map from a PBF file gives the same result and leaves the same stores as importing it from an XML file; a PBF file which is damaged or cut off is refused and leaves all stores as they were.", "quantifier": "every map with any nodes, ways and relations, every way to spread it over parts, blocks and groups, plain and dense, every store, every cut of the file", "why_tests_cant": "Tests read one small PBF file and count elements. Delta coding, string tables, offsets, groups and frames can be combined in ways which no sample file has, and a cut can be at any byte.", "anchors": ["core/src/formats/osm/pbf/OsmPbfParser.hpp:32-219", "core/src/index/GeoStore.cpp:81-116"]}
{"id": "C104", "title": "GeoJSON files are imported completely or not at all", "statement": "After importing a GeoJSON file every tile shows, besides what it has shown before, exactly the features of the file which belong there, each once, with their tags and positions; a file which is refused leaves all tiles as they were.", "quantifier": "every document with any collections and features of all five supported types, every stylesheet, every target, every state of the stores, every place of a fault", "why_tests_cant": "Tests import one file and count elements. Whether something of a file remains which is refused later, and whether every feature arrives in every tile it belongs to, depends on documents and faults of which there are infinitely many.", "anchors": ["core/src/formats/osm/json/OsmJsonParser.hpp:52-205", "core/src/index/GeoStore.cpp:81-116", "core/src/formats/osm/OsmDataVisitor.cpp:69-72"]}
{"id": "C105", "title": "Shape files are imported completely or not at all", "statement": "After importing a shape file with its table every tile shows, besides what it has shown before, exactly the points, lines and polygons which belong there, each once, with the values of its row as tags; files which are refused leave all tiles as they were.", "quantifier": "every number of records and fields, every geometry of every supported type, every null value, every stylesheet, every target, every state of the stores, every place of a record which cannot be read", "why_tests_cant": "Tests read one shape file and count elements. Part tables, null values and damaged records can be combined at will, and what is stored when the import fails is not looked at.", "anchors": ["core/src/formats/shape/ShapeParser.hpp:23-152", "core/src/formats/shape/ShapeDataVisitor.hpp:42-104", "core/src/index/GeoStore.cpp:81-116"]}
{"id": "C106", "title": "An element which is added through the API comes back as it was given", "statement": "After addDataInElement under a readable stylesheet, getDataByQuadKey tells the caller, for every tile, exactly what it told before and the new element if the rules want it there and name a builder of the caller: with its id, its tags, its places with heights, and the declarations which apply.", "quantifier": "every path and stylesheet, every element, every list of tags, every range of levels, every tile, every state of the stores, every later content of the file of the stylesheet", "why_tests_cant": "Tests of the API add one element and check that no error is told. The round trip goes through string table, stylesheet, tiling, clipping, store, builder choice and exporter; whether something is lost on the way depends on all of them together.", "anchors": ["core/shared/Storage.hpp:59-130", "core/shared/Search.hpp:41-180", "core/shared/Application.hpp:43-61", "core/src/builders/QuadKeyBuilder.cpp:40-87"]}
{"id": "C107", "title": "Stylesheets are read once", "statement": "The first call which names a stylesheet reads it; from then on all calls use the rules which the file had then, whatever becomes of the file; a stylesheet which is missing or refused leaves no trace, so that the file can be corrected, and the error is told.", "quantifier": "every sequence of calls of the API with any arguments, with files changing between any two calls", "why_tests_cant": "It is a statement about all histories of calls and of changes of files; tests have one stylesheet which never changes.", "anchors": ["core/shared/Application.hpp:43-61", "core/shared/Configuration.hpp:27-31", "core/shared/Storage.hpp:11-130", "core/shared/Search.hpp:41-71"]}
{"id": "C108", "title": "Tables which are filled on demand give all threads the right values", "statement": "Threads which ask at the same time for gradients of a stylesheet, or for heights of tiles whose grids are read on demand, each get for each question what reading it afresh gives: the value or the exception. Values are not replaced, exceptions leave the lock free, nobody waits forever, and no access to the table races with a change of it.", "quantifier": "every number of threads, every list of questions of each thread, every schedule, every content of the files, every table filled before", "why_tests_cant": "It is a statement about all interleavings. Tests are single threaded, and a race rarely shows even with threads.", "anchors": ["core/src/mapcss/StyleProvider.cpp:287-298", "core/src/heightmap/GridElevationProvider.hpp:48-53", "core/src/heightmap/GridElevationProvider.hpp:94-128"]}
{"id": "C109", "title": "Gradients in stylesheets mean what is written", "statement": "A text gradient(...) with colors in hexadecimal digits or by name, each with or without a percentage, separated by commas, denotes these colors at these places, the first without a percentage at 0 and the others at 1; evaluated at such a place it gives that color; a color alone is a gradient of one color; the empty text is refused.", "quantifier": "every list of colors, every way to write them, every number of blanks", "why_tests_cant": "The texts are taken apart by a regular expression with four alternatives, greedy, lazy and optional parts; tests try three texts. Whether any of infinitely many texts is cut at the wrong place is a statement about the expression.", "anchors": ["core/src/utils/GradientUtils.cpp:239-278", "core/src/mapcss/StyleProvider.cpp:287-298", "core/src/mapcss/ColorGradient.hpp:37-53"]}
{"id": "C110", "title": "Added elements are found by their words through the API", "statement": "After an element was added through the C API, a search for words tells what it has told before and this element, once for every tile of the box and the levels where it is stored, if its tags match: with id, texts of tags and places; hasData is true for a tile exactly if it was before or something of the element is to be seen there. Neither call changes anything.", "quantifier": "every element, stylesheet, query, box, levels and earlier contents", "why_tests_cant": "Words go through the tokenizer, the string table, bitmaps for each tile, a filter by box and the exporter; tests search for one word after one import. Which elements are missed or told wrongly depends on all contents and queries.", "anchors": ["core/shared/Search.hpp:16-38,87-191", "core/shared/Storage.hpp:59-117", "core/src/index/GeoStore.cpp:118-146", "core/src/index/BitmapIndex.cpp:32-77"]}
{"id": "C111", "title": "Buildings look as the stylesheet says", "statement": "After a stylesheet and an OSM file were read and a tile was loaded, the mesh callback gets one mesh for each building of the file which is to be seen in the tile: its walls reach from the declared min-height to the declared height above the ground, its roof and facade have the declared types and looks (metres, percents, plain numbers, expressions over the tags of the element), with all parts and nothing else; the mesh has no gap if the parts are above the ground.", "quantifier": "every stylesheet, file, tile, store contents and element", "why_tests_cant": "The chain goes through the parser of stylesheets, the cascade, expressions, import, clipping, the choice of builders, and the drawing of parts; tests fix the style of one square. Whether values get mixed up depends on all rules and tags.", "anchors": ["core/src/builders/buildings/BuildingBuilder.cpp:29-52,186-346", "core/src/builders/MeshContext.hpp:50-69", "core/src/mapcss/Style.hpp:94-157", "core/src/builders/QuadKeyBuilder.cpp:55-71"]}
{"id": "C112", "title": "The ground looks as the stylesheet says", "statement": "The layers, levels, widths and looks of the ground's regions are those which the rules of the stylesheet declare for the elements; the order of the layers, their looks, the background and the size of the grid's cells are those which are declared in rules for the canvas under the names of the layers. With these, each point of a tile is on the piece of the layer with the highest order, and the meshes show the pieces; for a file which was imported, the ground is made of the elements which are to be seen in the tile and for which the rules name the terrain builder.", "quantifier": "every stylesheet, tile, elements (also relations in relations) and every file", "why_tests_cant": "The options of a region come from the element's style, from keys which begin with the layer's name in the canvas' style, or from the background, and lengths are relative to the tile, to the grid's cells or in metres; tests look at meshes of one stylesheet. Which option wins depends on all rules and elements.", "anchors": ["core/src/builders/terrain/TerraBuilder.cpp:72-222", "core/src/builders/terrain/RegionTypes.hpp:34-65", "core/src/builders/terrain/TerraGenerator.cpp:15-32", "core/src/builders/terrain/SurfaceGenerator.cpp:46-105", "core/src/mapcss/Style.hpp:92-160", "core/src/mapcss/StyleProvider.cpp:407-427"]}
{"id": "C113", "title": "Surfaces have the colors and textures which the stylesheet names", "statement": "Roofs and walls of buildings have the color which the stylesheet's text names (the middle one of a gradient) and a texture of the first atlas with the named number: one of the named group, chosen by the building's id. The ground has at each point a color of the gradient or one between neighbours, and the first texture of the group. For a file which was imported, the mesh of each building of a tile shows these colors and textures. A gradient of several colors on a building is shown in one color only.", "quantifier": "every stylesheet text, atlas text, color or gradient, texture, element, tile and file", "why_tests_cant": "Colors go from the text through a regular expression, a gradient, noise and integer packing to the mesh, textures through atlases by number, group and id; unit tests look at single steps with a few values, and none compares a mesh's colors with the stylesheet.", "anchors": ["core/src/builders/MeshContext.hpp:50-69", "core/src/builders/terrain/RegionTypes.hpp:49-62", "core/src/mapcss/StyleProvider.cpp:271-306", "core/src/utils/GradientUtils.cpp:291-296", "core/src/utils/GradientUtils.hpp:37-41", "core/src/builders/MeshBuilder.cpp:257-281"]}
{"id": "C114", "title": "Barriers are built as the stylesheet says", "statement": "For each element which a stylesheet gives to the builder of barriers the callback gets walls or pillars with the height, width, radius, lengths, gaps and steps which the rules for the element declare, in the declared color and texture, and nothing else; members of relations are built as the relation's rules say. For a file which was imported, so are the barriers of each tile. A stylesheet which forgets the lengths or the step is accepted but leads to undefined behaviour.", "quantifier": "every stylesheet, element, tile and file", "why_tests_cant": "Values go through the cascade, evaluation, dimensions in metres and degrees, subdivision of ways and copying of meshes; the unit tests of the builder only look whether a mesh is delivered for a few elements.", "anchors": ["core/src/builders/misc/BarrierBuilder.cpp:23-127", "core/src/builders/generators/WallGenerator.hpp:57-111", "core/src/builders/generators/CylinderGenerator.hpp:60-121", "core/src/utils/GeometryUtils.hpp:90-96", "core/src/builders/MeshContext.hpp:36-69"]}
{"id": "C115", "title": "Trees and lamps look as the stylesheet and its L-systems say", "statement": "For an element with the builder tree or lamp, the meshes show the plant which the stylesheet declares: the named L-system is the one of the file's text, it is rewritten as often as declared, and the bodies which its commands draw (cylinders, cones and spheres in the declared size, turned by the declared angle, scaled by the declared factor) have the declared colors and textures. A node gets the plant at its place on the ground; a way gets copies at the declared distances, lamps beside it alternately left and right if a width is declared. A gradient of several colors cannot be declared.", "quantifier": "every stylesheet text, L-system text, atlas text, element, tile and file, every choice of random productions", "why_tests_cant": "From the stylesheet and an L-system file to a mesh it takes two parsers, style evaluation, random rewriting, a turtle with a stack, generators of bodies, copies along ways and texture atlases; unit tests check single steps for one literal, and none compares a mesh of a tree with the texts.", "anchors": ["core/src/builders/poi/TreeBuilder.cpp:23-62", "core/src/builders/misc/LampBuilder.cpp:22-97", "core/src/builders/generators/LSystemGenerator.cpp:23-197", "core/src/mapcss/StyleProvider.cpp:276-278", "core/src/mapcss/StyleProvider.cpp:308-314", "core/src/lsys/Turtle.cpp:10-56"]}
{"id": "C116", "title": "Threads which ask for heights of SRTM cells get those of the files", "statement": "Threads which ask one provider at the same time for heights of places get, for each place, the height which the file of its cell gives; all cells of a tile are loaded at once under a lock. If the file of some cell of the tile is no good the call throws. Cells are not replaced, exceptions leave the lock free, nobody waits forever, and no access to the map races with a change of it.", "quantifier": "every number of threads, every list of calls of each thread, every tile with its cells, every set of files and every interleaving of the steps", "why_tests_cant": "A test runs a handful of interleavings, and a data race rarely shows in a test run; which cells are loaded before depends on the order of the calls.", "anchors": ["core/src/heightmap/SrtmElevationProvider.hpp:62-88", "core/src/heightmap/SrtmElevationProvider.hpp:90-141", "core/src/heightmap/SrtmElevationProvider.hpp:148-173"]}
{"id": "C117", "title": "Buildings with any declared roof and walls are drawn as declared", "statement": "A building is drawn with the roof and the walls which the stylesheet declares: no, flat, pyramidal, dome, round, mansard and skillion roofs, each combined with flat walls, a cylinder or a sphere, in the declared heights, direction and looks. The mesh shows all parts and nothing else; there is no gap in parts above the ground with flat walls and a flat, pyramidal, mansard or skillion roof.", "quantifier": "every stylesheet, file and tile, every building with any number of parts, every combination of roof and walls, all outlines for which the kinds are described", "why_tests_cant": "Tests draw one roof of each kind on one rectangle with flat walls; they do not combine roofs with walls or compare the faces with the declarations.", "anchors": ["core/src/builders/buildings/BuildingBuilder.cpp:55-122", "core/src/builders/buildings/BuildingBuilder.cpp:186-346", "core/src/builders/buildings/roofs/RoundRoofBuilder.hpp", "core/src/builders/buildings/roofs/MansardRoofBuilder.hpp", "core/src/builders/buildings/roofs/SkillionRoofBuilder.hpp", "core/src/builders/buildings/roofs/DomeRoofBuilder.hpp", "core/src/builders/buildings/facades/CylinderFacadeBuilder.hpp"]}
{"id": "C118", "title": "GeoJSON and shape files are built as the stylesheet says, also after a restart", "statement": "After a GeoJSON or a shape file was imported, loading a tile hands to every builder exactly the features or records which are to be seen in the tile and for which the rules of the stylesheet name it, besides the elements which were there before. The same holds when the store is on disk and the program is started again. Buildings of a GeoJSON file are drawn with the declared roofs, walls, colors and textures.", "quantifier": "every stylesheet, file, range of levels and tile, every content of the stores, every order of stores and builders, any searches before", "why_tests_cant": "Tests of these formats count the elements which the parser tells to a visitor; none follows a file through storing, a restart and styling to the builders.", "anchors": ["core/src/formats/osm/json/OsmJsonParser.hpp:52-76", "core/src/formats/shape/ShapeParser.hpp:23-110", "core/src/index/GeoStore.cpp:38-139", "core/src/index/PersistentElementStore.cpp", "core/src/builders/QuadKeyBuilder.cpp:30-120"]}
{"id": "C119", "title": "OSM files are built as the stylesheet says, told from the files alone", "statement": "If the string table gives back the strings of a stylesheet and of an OSM file, then after the import every tile hands to every builder exactly the elements which are to be seen there and for which the rules name it, without conditions on the elements which come out of relations and clipping. The same holds from stores on disk after a restart, and buildings are drawn with the declared roofs, walls, colors and textures.", "quantifier": "every stylesheet, OSM file, range of levels and tile, every content of the stores, every order of stores and builders, any searches before", "why_tests_cant": "Tests use a handful of files and stylesheets whose strings are few; parts of buildings get a tag whose key is in no table, and no test shows that rules never mistake it for another one.", "anchors": ["core/src/index/StringTable.cpp:73-93", "core/src/formats/osm/OsmDataVisitor.cpp:16-133", "core/src/formats/osm/BuildingProcessor.hpp", "core/src/mapcss/StyleProvider.cpp:23-160", "core/src/index/GeoStore.cpp:38-139", "core/src/builders/QuadKeyBuilder.cpp:30-120"]}
{"id": "C120", "title": "String table is one unchanging dictionary", "statement": "All answers of a string table, in whatever order, through restarts, hash collisions and evictions and from any number of threads, are those of one dictionary: each string has one number and this number has the string. The number which marks parts of buildings (the largest one) is never given to a string, and asking for it disturbs nothing. So stylesheet and map data which are read at different times agree about their words.", "quantifier": "every history of calls and restarts, every hash function, every schedule of threads; strings without NUL in up to 4 GB, ids which have their string before they are asked for or never get one", "why_tests_cant": "A test sees a few strings in one order; whether a number can change its meaning after evictions, collisions or a restart depends on the whole history.", "anchors": ["core/src/index/StringTable.cpp:20-114", "core/src/formats/osm/BuildingProcessor.hpp", "core/src/mapcss/StyleProvider.cpp:23-160"]}
{"id": "C121", "title": "Everything drawn in a tile follows from the files", "statement": "After a stylesheet and an OSM (XML or PBF), GeoJSON or shape file are read, the file is imported into a store on disk, the program is started again and a tile is loaded, all what is drawn follows from these files: houses with the declared roofs, walls, colors and textures, the ground of the declared layers, barriers with the declared pillars and walls, trees and lamps grown by the L-systems of the stylesheet at the declared distances.", "quantifier": "every stylesheet with its atlases and L-systems, every file, range of levels and tile, every content of the stores, every order in which stores are registered and builders are called", "why_tests_cant": "A tile is drawn by several builders from one list of elements, through parsers, importers, files on disk, a cache and a cascade of rules; tests look at one of these at a time.", "anchors": ["core/src/builders/QuadKeyBuilder.cpp:20-145", "core/src/builders/buildings/BuildingBuilder.cpp", "core/src/builders/terrain/TerraBuilder.cpp", "core/src/builders/misc/BarrierBuilder.cpp", "core/src/builders/poi/TreeBuilder.cpp", "core/src/builders/misc/LampBuilder.cpp", "core/src/index/PersistentElementStore.cpp", "core/src/index/GeoStore.cpp:40-180"]}
{"id": "C122", "title": "Files whose ids are all different are drawn completely", "statement": "If no id of an OSM file is used twice (also not for a node and a way) and relations have tags, then whatever relations and clipping make of its elements, no id is twice among what is found in any tile, so that the builders lose nothing: everything which is drawn follows from stylesheet and file alone. If all rules of the stylesheet ask for tags, this needs different ids only for things which have tags.", "quantifier": "every OSM file in XML or PBF with different ids and tagged relations, every stylesheet, tile, clipping library and content of the stores with other ids", "why_tests_cant": "Elements are remembered by id while a tile is built; whether two of them can collide depends on what relations and clipping make of all elements of the file in all tiles.", "anchors": ["core/src/builders/QuadKeyBuilder.cpp:20-145", "core/src/index/ElementGeometryClipper.cpp:60-225", "core/src/formats/osm/OsmDataVisitor.cpp", "core/src/index/ElementStore.cpp"]}
{"id": "C123", "title": "Whether the relations of a file can be resolved is seen in the file", "statement": "If no relation of an OSM file contains itself, multipolygons in other relations have only closed ways of the file and one outer way, buildings in other relations have no outline and only ways and relations of the file, ways of multipolygons are in the file or share no number with a relation, and outer ways of multipolygons with at most one tag are not named by buildings, then all relations are resolved, in any order and without undefined behaviour, the areas of all multipolygons are assembled whatever their ways are, and everything which is drawn follows from stylesheet and file.", "quantifier": "every such OSM file in XML or PBF, every stylesheet whose rules ask for tags, every order of resolving, every tile", "why_tests_cant": "Relations name each other and are resolved recursively in the order of a hash map; that no outer ring is missing needs an argument about all possible rings.", "anchors": ["core/src/formats/osm/MultipolygonProcessor.cpp:63-67", "core/src/formats/osm/MultipolygonProcessor.cpp:214-265", "core/src/utils/GeoUtils.hpp:91-101", "core/src/formats/osm/OsmDataVisitor.cpp"]}
