# Formal model of utymap core in Lean 4

## Layout

* `lean/Verif/Model/*.lean`: the model, one file per group of source files. Every definition cites the
  file and lines in `/repo/core/src` it models, and names its simplifications. The comment at the head of each file lists what is left out of it.
* `lean/Verif/Proof/*.lean`: helper lemmas.
* `lean/Verif/Props/*Spec.lean`: small specifications which do not use the functions of the model (only its data types).
* `lean/Verif/Props/*.lean`: the property theorems (`C01_...`, `C02_...`), and beside each of them an `example` showing a concrete
  non-trivial case meeting the hypotheses.
* `properties.jsonl`: the English properties. `MANIFEST.json`: property -> theorems. `seeded/LOG.jsonl`: wrong programs tried against the
  theorems.

## Conventions

* Undefined behaviour of C++ is a distinct outcome (`Outcome.ub`), an exception is `Outcome.throw`. A theorem which says that a function
  returns `.ok` says that neither happens.
* Byte streams and files are lists of bytes; file positions are modelled where the code depends on them (persistent element store).
* `double` is modelled in one of three ways, stated at each definition: (a) an opaque value where the code only copies it, (b) an element of an
  ordered field (with floor or square root where needed) or a real number where the property is about geometry; rounding, overflow to infinity
  and NaN are then outside the model, (c) an abstract type with the operations as parameters.
* Libraries (polygon clipping, triangulation, boost parsers for JSON/XML/numbers, protobuf, zlib, shapefile, `std::sort`) are parameters;
  a theorem holds for every function in their place, or names the hypothesis it needs of them.
* When the code violates a property the file proves the negation (`C.._violated_...`) next to a `_partial` theorem which states what does hold.
* Loops are folds over the range of the loop variable or structural recursions; recursion without a measure gets fuel, and the theorems either
  show that enough fuel exists or that no fuel is enough.

## Trusted base

* Lean's kernel (4.33.0) and Mathlib's definitions used in statements (`List`, `ℝ`, `ℚ`, ordered fields, floor, `Real.sin` and so on).
* Axioms: every theorem named in `MANIFEST.json` depends on at most `propext`, `Classical.choice`, `Quot.sound` (list at the end of this file).
  No axiom is added, there is no `sorry`, no `native_decide`, no `bv_decide`.
* The tie between the model and the C++ code is reading only: the code was neither built nor run. Each definition cites what it models so that
  it can be checked against the source.
* Concurrency: operations under one mutex are atomic sections (C06 starts from smaller steps and proves this); the C++ memory model itself is
  not modelled. Races outside of locks are named in the comments (elevation caches, gradients of the style provider).

## Properties: what is modelled and how it is proved

The theorem names are in `MANIFEST.json`. `violated` lists the theorems which show, with a concrete witness or for all inputs of a kind, that the
code breaks the full statement; the `_partial` theorem states what does hold.

| id | property | status | model | approach | violated |
|----|----|----|----|----|----|
| C01 | LRU cache is a bounded recency map | proved | Lru | list with node identities and map with all operations; refinement to a timestamped map; invariant by induction over histories |  |
| C02 | String table maps strings to ids and back | proved | StringTable | data file bytes, index records, hash buckets, cache, abstract hash; invariant relating them to the list of assigned strings; refinement to that list |  |
| C03 | String table survives close and reopen | proved | StringTable | restart is an operation of the history: constructor on the files |  |
| C04 | String table accepts every string and every id | partial | StringTable | arbitrary strings and ids; partial theorem and witnesses | nul, early_lookup |
| C05 | String table after a crash | partial | StringTable | crash = any prefix of the pending bytes of each file; case analysis over what reached the disk | torn_index, index_first |
| C06 | String table is safe under concurrent callers | proved | StringTableConc, Lock | threads with small steps under a mutex, any schedule; simulation by the sequential history of critical sections |  |
| C07 | Element serialisation round-trips | partial | Streams, Element | byte codec with 16 bit counters; structural induction over nested elements | 65536 |
| C08 | Mesh serialisation round-trips | proved | Streams | byte codec with abstract float conversion; round trip lemmas composed field by field | nul_name |
| C09 | Different tiles never share a file | proved | Tiles | quadKeyToString and file paths as texts; injectivity by induction over the level of detail |  |
| C10 | Tile keys are totally ordered | proved | Tiles | QuadKey::Comparator; order laws from the lexicographic order |  |
| C100 | What was imported is there after a restart | partial | DiskImport, PersistentStore, GeoStore, Import, LoadTile | composition of C97 (what is saved for a file), C16 (the store on disk, with its invariant), C20 (stores by key) and C98 (loading): induction over the saves of the import, the registrations and the searches. Doubles are a parameter; coordinates which are doubles survive being written and read | cancelled |
| C101 | Tiles of a store on disk can be searched by several threads | partial | ParallelSearch, PersistentStore | search as a machine of small steps (open under the lock, count, go to the beginning, id, offset, go to the element, element) with the open tiles as a heap; invariant over steps of all threads: the positions of a file fit to the place of the thread which uses it, an open tile which nobody uses stands at its end; a measure counts the steps which are left. Violations for two threads on one tile are runs of the model | nothing_found, wrong_element |
| C102 | A text search finds what was imported | partial | FindText, GeoStore, MemStore, BitmapIndex, Import | the search visits the stores; each store answers for the tiles of box and levels by C18, so the answer is, up to order, what the tiles show filtered by the words and the box; the box test is compared with shared points of boxes (C14), the tiles with owners of points (C12); the import theorem joins this with C97. Violation: a node in two levels is found twice | twice |
| C103 | A map can be imported as XML or as PBF | partial | PbfFile, Pbf, Import | the file is a row of frames (size, header, blob); protobuf messages and zlib are parameters. The specification says which bytes are a file of a map; by induction over the parts the visitor is told the same nodes, ways and relations as by the XML reader (C93), so both imports are equal as functions of all stores. Cuts: induction over the parts before, then the last one | cut, empty, buffer |
| C104 | GeoJSON files are imported completely or not at all | partial | DirectImport, Json, Import | the parser hands every feature on when it is read, so the model is the list of elements handed on and how the parser ended; by induction over collections and features this list is what C58 says, up to the first tree which is no feature (whatever the parser accepts is a feature, and it fails with exceptions only); storing as in C95 | refused |
| C105 | Shape files are imported completely or not at all | partial | DirectImport, Shape, Import | records with their rows one after the other, elements are stored at once; by induction over the records the elements are those of C50 and C66 with the tags of the row; storing as in C95. The shapefile library is not modelled: records and cells are what it returns | refused, dropped, polygon |
| C106 | An element which is added through the API comes back as it was given | partial | Session, Api, LoadTile, Import, GeoStore | the calls as functions of the providers by path and the stores by key; the element is the one which the numbers and texts describe (C51, C67), it is saved where it is to be seen (C19, C95), the tile is built as in C98, visits of builders which are not registered go to the exporter; equality of multisets builder by builder. Violated for tags in another order than that of the string table | order |
| C107 | Stylesheets are read once | partial | Session, MapCss, Style | invariant over histories: a known provider is never replaced; reading as in C60, frame of the failing read; the effect of a call does not depend on the file of a known stylesheet |  |
| C108 | Tables which are filled on demand give all threads the right values | partial | LazyTable, Elevation | one machine for both classes, each access to the table with a begin and an end, overlapping accesses of which one is a change are undefined behaviour; invariants over all schedules for answers, lock and marks, a measure for progress. Violated: the first look is done without the lock and runs into the change by another thread; free of races if the keys are in the table or have no value, or if calls do not overlap | race |
| C109 | Gradients in stylesheets mean what is written | partial | Gradient, Color, Strings, LazyTable | the regular expression as a term with the list of its matches in the order of a backtracking matcher, sregex_iterator as leftmost first matches; the first match at each stop is computed for all stops, induction over the stops; with C33 the color at each place, with C108 for threads. Violated: percentages without sign or with a fraction, px, rgb(...), three digits, names which begin with gradient | unit, px, fraction, rgb, prefix, digit |
| C11 | Level-of-detail ranges are validated | proved | Tiles | LodRange constructor; case analysis |  |
| C110 | Added elements are found by their words through the API | partial | SessionText, Session, FindText, GeoStore, MemStore, Api | getDataByText and hasData as further calls between those of C106; what the tiles show grows by what is seen of the element (C106), so that the searches of C102 grow by the matching parts, which the exporter of C67 tells. Violated: an element which the tile cuts into pieces is stored as a relation without tags and is not found there | pieces |
| C111 | Buildings look as the stylesheet says | partial | BuildingSheet, Building, StyleEval, StyleValue, Style, LoadTile | the style of C74 to C76 is no parameter: it is read from the filters of the stylesheet (C28) with the values of C31 and C70, and the calls are those of C98. Gradients and textures stay a function of the declared texts. Violated: without a roof-type the end of a map is read | no_roof |
| C112 | The ground looks as the stylesheet says | partial | TerrainSheet, Terrain, Style, StyleValue, StyleEval, LoadTile | the readers of options take values by key from styles; C28 says what is declared under a key, C31 and C70 what its text means; so the builder is Terrain.build in an environment whose looks are those of the rules, and C83, C84 and C85 say what the ground is then. C98 brings the elements of a file. Gradients and textures are a parameter |  |
| C113 | Surfaces have the colors and textures which the stylesheet names | partial | Palette, Atlas, Gradient, Surface, BuildingSheet, TerrainSheet | the parameter of C111 and C112 which finds looks is the function of gradients (C109), textures (C92) and colors (C99). Faces of each part of a building are followed to their looks: flat, pyramidal roofs, floors and walls. Buildings have no noise, so the gradient is taken at one half: the violation computes it for gradient(red, blue). C98 brings the elements of a file, C60 and C92 the atlases of the stylesheet | gradient, no_color |
| C114 | Barriers are built as the stylesheet says | partial | BarrierSheet, Barrier, Palette, LoadTile | the style of C82 is read from the rules (C28, C31, C70), distances are those of C69 (so that numbers of pieces fit into int as soon as lengths are a centimetre), rotations those of C54 (a regular heptagon), and looks those of C113. C81 and C82 were strengthened to say which color and texture each triangle has. The violation follows a style without lengths to the division by zero | no_length |
| C115 | Trees and lamps look as the stylesheet and its L-systems say | partial | PlantSheet, LsysDraw, Lsys, LsysText, Along, Palette | the parameters of C80 and C90 (generator, steps, appearances) are read from the style of the element. What commands draw is described by an inductive relation over the rewritten program which says for each command what happens (turns by rotation formulas, as long as direction and right are perpendicular); the run of the turtle is shown to satisfy it by induction, using C38, C39 and C71. Bodies are those of C90, colors and textures those of C113, copies those of C80; C91 and C60 bring the L-systems from the texts, C98 the elements of a file | gradient |
| C116 | Threads which ask for heights of SRTM cells get those of the files | partial | CellTable, Elevation | a machine as for C108, but a call loads all cells of its tile one after the other under the lock, and an exception leaves those loaded so far. Invariants over all schedules for answers, lock and marks (the loops know which cells of the tile are left and that the others are in the map), a measure for progress; heights from cells by C41. Violated: the first look is done without the lock and runs into the change by another thread; and a call refused because of another cell of the tile is answered if it is repeated | race, retry |
| C117 | Buildings with any declared roof and walls are drawn as declared | partial | BuildingSheet, Building, Roofs | composition of the styles of C111 with the drawn roofs of C86 to C89: roof and walls of a part are drawn independently, so that each kind of roof is combined with each kind of walls; parts and buildings by induction; from a file through C98. Borders of the roofs of C87 and C88 against the walls give closed surfaces as in C76. Colors and textures as in C113, as each face of each roof and wall takes them from the look of the part. Partial: mansard and skillion roofs above one ring, outlines for which the kinds are described (hypotheses `RoofAble`, `FacadeAble`), real numbers for doubles; nothing about gaps of round roofs, domes, cylinders and spheres |  |
| C118 | GeoJSON and shape files are built as the stylesheet says, also after a restart | partial | DirectImport, DiskImport, LoadTile | composition of C104 and C105 (what the file tells), C19 (tiles), C15 and C16 (stores), C28 (rules) and C26 (builders); that strings of the tags are known is derived from the strings of the file, also for the pieces of clipped elements; the meshes through C117. Partial: as in C104, C105 and C16; ids which are there twice; features with a property twice; real numbers for doubles |  |
| C119 | OSM files are built as the stylesheet says, told from the files alone | partial | Resolve, Import, DiskImport, LoadTile, BuildingSheet | the tags of every resolved relation, of its members, of marked parts and of clipped pieces are traced back to tags of the file, so that the strings which conditions ask for are those written in the file; then C98, C100 and C117. The key of the mark has no string, and no condition asks for the empty key. Partial: as in C98, C100 and C117; files with a key twice in one element |  |
| C12 | A coordinate lies in the tile computed for it | proved | Mercator | web mercator over the reals; monotonicity of log, tan, sinh; numerical bounds at the limits |  |
| C120 | String table is one unchanging dictionary | proved | StringTable, StringTableConc | invariant of C02 extended by ids which may be cached as empty because they never get a string; the final list of strings is the dictionary, and answers given earlier agree with it because lists only grow; that the largest number stays free follows from the size of the data file; threads through C06. This is what justifies the fixed functions getId and getString in the models of stylesheets and imports (third theorem: the hypothesis of C119 is met) |  |
| C121 | Everything drawn in a tile follows from the files | partial | DiskImport, DirectImport, PbfFile, LoadTile, BuildingSheet, TerrainSheet, BarrierSheet, PlantSheet, Palette | composition: one theorem for a tile which is loaded with elements whose strings are known (C112, C114, C115, C117 for the same run), then C119 for OSM files, C103 for PBF, and C118 for GeoJSON and shape files, where members of features have no tags, so that their strings are known too. Partial: what these leave open; each part of the scene is told under the conditions of its builder on declarations and shapes |  |
| C122 | Files whose ids are all different are drawn completely | partial | Resolve, Clipper, Import, LoadTile | what is seen of an element has its id or consists of pieces without id (cases of the clipper); resolved elements have the ids of the file (induction over the lists of the maps); so the condition on ids of C121 follows from the text of the file. With rules which ask for tags an element without written tags is not seen (marks of building parts have no string), so only ids of things with tags count. Partial: what C121 leaves open; with equal ids elements are lost (C26) |  |
| C123 | Whether the relations of a file can be resolved is seen in the file | partial | Resolve, Multipolygon, RingContains, Import, LoadTile | a ray to the east meets an edge not farther east than its ends, so a ring which contains another reaches farther east: the ring which reaches farthest is an outer one, and the loop of rings always finds one (induction over the rings); maps and kinds of relations are traced back to the text of the file, so the condition of C96 follows from a condition on the text. Partial: relations which contain multipolygons other than those of closed ways with one outer way or buildings with an outline, nodes or missing members, rounding of double, what C121 leaves open |  |
| C13 | Tile range enumeration is exact | partial | Mercator, Bbox | loops over tiles; the enumerated set is compared with half-open ownership | border |
| C14 | Bounding box algebra | proved | Bbox | bounding boxes over an ordered field; lattice arguments | out_of_range |
| C15 | In-memory store is an append-only multimap by tile | proved | MemStore | state machine; refinement to a multimap |  |
| C16 | Persistent store behaves like the in-memory store | partial | PersistentStore | three files per tile with shared stream positions and a recency list of open tiles; refinement to the in-memory store for allowed histories; witnesses | after_text_search, after_cancelled_search, hasData, garbage_key |
| C17 | Persistent store keeps data over restarts | partial | PersistentStore, BitmapIndex | the same with restarts and text searches | save_after_restart |
| C18 | Text search returns exactly the matching elements | partial | BitmapIndex, Ewah | queries over compressed bitmaps; refinement to boolean semantics over words | unmatched_or, only_not |
| C19 | Elements are stored in exactly the tiles they touch and the lods they are styled for | partial | ElementStore, Clipper, Mercator | set of (lod, tile) of the calls of save; induction over lods | crossing_way |
| C20 | Geo store dispatches to the registered store | partial | GeoStore | state machine over any stores; induction over histories | unregistered |
| C21 | Cancelled import leaves no trace | partial | GeoStore | cancellation at any point of the import; invariants | tile_lost, range |
| C22 | Mesh cache serves only complete tiles | partial | MeshCache | files as bytes with marker, crash, disk-full and cancel steps; invariant by induction over steps | empty_file |
| C23 | Mesh cache replays the build | partial | MeshCache, Streams | replay of the written records | precision |
| C24 | Mesh cache tolerates concurrent builds | partial | MeshCache | interleaved builds; stream ownership; witnesses for overlaps | overlap, foreign_end, after_exception |
| C25 | Mesh pool hands out clean meshes | proved | MeshPool | invariant over call sequences |  |
| C26 | Each element of a tile is built once per builder and builders complete once | partial | QuadKeyBuilder | visitor with the set of ids; induction over visited elements | same_id, clipped |
| C27 | Clipping keeps identity and tags | partial | Clipper | clipping library as parameter; case analysis and induction over relations | single_member, crossing_way |
| C28 | Style cascade | partial | Style | rules and cascade; induction over rules and declarations | id_order, canvas_condition |
| C29 | Condition matching sees every tag | partial | Style | binary search over tags; invariant | unsorted, repeated_key |
| C30 | Stylesheet tag identifies the stylesheet | partial | Style | hashed text; injectivity of the text for edits of one value | kind |
| C31 | Style expressions | partial | StyleEval | recursive descent parser from the text to the value; printer/parser round trip and evaluation by induction over expressions | missing_tag, empty_value |
| C32 | Color packing is lossless | proved | Color | bit operations on packed colors |  |
| C33 | Gradient evaluation interpolates | partial | Color | interpolation over an ordered field with floor | rounding, after_last, repeated_last, far_after_last |
| C34 | OSM ways become ways or areas | partial | Osm | ways to areas; case analysis, orientation by the signed area | missing_node, repeated_closing |
| C35 | Resolving relations terminates | partial | OsmRelations | resolution with fuel and a rank of relations; divergence for every fuel as witness | cycle, building, twice |
| C36 | Multipolygon rings | partial | Multipolygon, RingContains | ring assembly with segments as multisets; invariants of the loop; a ring which contains another reaches farther east, so an outer ring is always found | open_way, mutual |
| C37 | Merging tags | proved | Osm | merge over any correct sorting routine |  |
| C38 | L-system rewriting | proved | Lsys | rewriting by a lazily expanded stack against the parallel rewriting; induction over generations |  |
| C39 | Turtle save/restore | partial | Lsys | state stack; induction over words | bracket_production, style |
| C40 | Grid elevation interpolates inside the grid | partial | Elevation | bilinear interpolation over an ordered field; bounds of indices | few |
| C41 | SRTM heights are decoded correctly | partial | Elevation | bytes to heights, file names as texts, cells in memory | signed, unsigned, name, south |
| C42 | Splitting lines by grid | partial | LineGrid | split points on a segment; invariants of the loop over grid lines |  |
| C43 | Meshes are well formed | proved | MeshBuilder | inductive set of built meshes; invariant of indices and lengths | back |
| C44 | Texture map partitions the uvs | proved | MeshBuilder | texture records as segments of the uv list |  |
| C45 | Polygons are closed | partial | Polygon | contours as cycles over indices; invariant of addContour and addHole | empty |
| C46 | Bounding rectangles | partial | Polygon | bounding rectangle as fold; witness for negative coordinates | negative |
| C47 | Color parsing | partial | Color | parser for hex colors over all strings; table by transcription | short |
| C48 | Sphere refinement level | partial | Solids | subdivision; number of triangles | level |
| C49 | PBF delta decoding | partial | Pbf | delta decoding against delta encoding by induction | offset, raw |
| C50 | Shape polygon parts | partial | Shape | part tables; induction over vertices | read, start |
| C51 | C API reports errors instead of propagating | partial | Api | C API calls with the request as parameter | lods, elevation, lengths |
| C52 | Data directories exist for all accepted lods | partial | Api, Tiles | set of created directories | lods |
| C53 | String helpers | proved | Strings | split, join, suffix over any characters; induction |  |
| C54 | Rotations preserve length | partial | Quaternion | polynomial identities over any field | rotate |
| C55 | Segment intersection | proved | Geometry | segment intersection over an ordered field |  |
| C56 | Bitmap persistence | partial | Streams | round trip of bitmaps as byte records | empty |
| C57 | Forest chunks | proved | MeshBuilder | loop over triangles with chunks; induction |  |
| C58 | GeoJSON features | partial | Json | property trees to elements | height, direction, repeated, dot, sign |
| C59 | Compressed bitmaps | partial | Ewah | bit-level run-length encoding; refinement to sets of positions; merge by simulation | xor, set_after_reread |
| C60 | Stylesheet parsing | partial | MapCss | grammar as recursive descent parser; printer/parser round trip with arbitrary gaps | trailing, condition, zoom, space, semicolon, import, missing |
| C61 | Relation members | partial | OsmRelations | members collected in order | same_id |
| C62 | Turtle orientation | partial | Lsys, Quaternion | frames under rotations; induction over commands | pitch, planar |
| C63 | Spherical interpolation | partial | Quaternion | slerp over the reals with atan2 as specified function | far, close |
| C64 | Border detection | partial | Polygon | distance to the lines of a box | near |
| C65 | Spheres and cylinders are closed | partial | Solids | edge sums: each oriented edge is cancelled; induction over subdivision and segments | noise |
| C66 | Shape points and lines | partial | Shape | points and lines to elements | parts, empty |
| C67 | Exported elements | partial | Api | exported arrays | relation |
| C68 | Point in polygon | proved | Geometry, Polygon | even-odd rule against crossing numbers, triangles by barycentric signs |  |
| C69 | Metres and degrees agree on the globe | partial | Geodesy | haversine over the reals; trigonometric identities and bounds of radii | radius |
| C70 | Style values mean what their dimension says | partial | StyleValue, Geodesy | style values by dimension | blank, expression |
| C71 | Opposite turtle commands undo each other | partial | Lsys, Quaternion | composition of rotations | pitch, roll |
| C72 | Every node and way of an OSM file is imported once | partial | OsmStream, Osm | visitor over the entries; invariants of the context | way_twice |
| C73 | Meshes show what was added | proved | MeshBuilder | relation between index buffer and shown triangles for each operation |  |
| C74 | Each building is one mesh with all of its parts | partial | Building | visitor with shared members, nested contexts; equality with a functional specification by mutual induction | way, node, empty |
| C75 | A part of a building has its roof, floor and walls | partial | Building | loops over index ranges against faces per edge of rings | roof |
| C76 | Buildings are closed surfaces | partial | Building | edge sums of faces; border of the triangle library as hypothesis | clockwise, hole |
| C77 | Tags are found | partial | Building | binary search over sorted tags | order, default |
| C78 | Spheres and cylinders have the requested shape | partial | Solids | points on the ellipsoid, outward faces; counts |  |
| C79 | Noise is bounded and has no steps | proved | Noise | bound by Cauchy-Schwarz and convexity, continuity by gluing cells |  |
| C80 | Trees and lamps stand along ways | partial | Along, MeshBuilder | loops over copies against lists of spots; mutual induction over elements | empty, step |
| C81 | Walls are rows of boxes | partial | Barrier, MeshBuilder | loop with a moving start point against pieces of the way | length |
| C82 | Each barrier gets its pillars or its wall | partial | Barrier | style member as state; mutual induction over elements | ground |
| C83 | The terrain has no gaps and no overlaps | partial | Terrain, TerrainClip | clippers as lists of paths with their kind, trace of pieces with the invariant that the clips are the regions so far; windings against an abstract contract of the clipping library, which a concrete library of grid cells meets | direction |
| C84 | The terrain shows the element of the highest layer | partial | Terrain | mutual induction over elements down to a list of regions with layer names; covering is preserved by merging and sorting; then C83 | area, empty_name |
| C85 | The terrain meshes show each piece on the ground with its texture | partial | Terrain, MeshBuilder | invariant over the pieces: the mesh shows the painted triangles (`Paints`: triangles with textures through the records of the texture map) and those without texture yet; induction over paths and sides; area against the shoelace formula | texture |
| C86 | A round roof is a vault over the outline | partial | Roofs, Building, MeshBuilder, Quaternion | the longest side by an invariant over the corners; a rotation by slerp between quaternions turns a vector in the plane (C54, C63), so the points of a segment are those of the half ellipse; the part by the drawing relation of C75 with any roof; the border by a telescoping sum over the steps; over the real numbers the library functions meet the assumptions | corners, trapezoid |
| C87 | A mansard roof has sides up to a smaller flat part | partial | Roofs, Building, MeshBuilder, Polygon | the path given to the library from one outline by an invariant over its points; the corner next to the first point by an invariant over the first half; the sides as a list over pairs of corners; the border by sums over edges, with a rotation of the ring | twist |
| C88 | A skillion roof is one tilted plane | partial | Roofs, Building, MeshBuilder, Geometry | front and back by an invariant over the sides (crossings by C55); the mesh with changed heights is again a filled mesh; the plane equation of the code is the ratio of signed areas; the border by sums over edges with a height for each corner | outlines |
| C89 | Domes, cylinders and spheres of buildings are round bodies around their outlines | partial | Roofs, Solids, Polygon, Building | the faces of the icosahedron and those left out by a dome form a closed surface (C65), divided and outward (C78); the prism by the addition theorems of sine and cosine; the rectangle of a polygon is grown by exactly the points of its rings | dome, sphere, west |
| C90 | L-systems are drawn as their commands say | partial | LsysDraw, Lsys, Turtle, Solids, Along | simulation: the drawing turtle and the recording turtle (C62) go in step, each recorded command shows as one body in the mesh; bodies by C65, C78 and C89; style lists by C53 | restore |
| C91 | Texts of L-systems are read as what they say | partial | LsysText, Lsys, MapCss | grammar: relation between L-systems and texts (LsysTextSpec), each parser function is proved to accept exactly the texts of its relation, in both directions; repeated parsers by induction over the steps of a chain | blank, unknown, comment, word |
| C92 | Textures are the regions of the atlas | partial | Atlas, LsysText, MapCss | grammar: each parser function accepts exactly the texts of its relation (AtlasSpec); groups by an invariant over the regions read so far; the provider by induction over the atlases | range, rest, last, second |
| C93 | OSM files in XML are read as they are written | partial | OsmXml, LsysText, MapCss | the skipper is characterised exactly; each parser function accepts exactly the texts of its relation (OsmXmlSpec), composed with a calculus of sequences; loops by induction, with what they deliver before an error | escape, atomic, way, relation, attribute, comment, empty, lost |
| C94 | Builds through the mesh cache deliver what builds without it deliver | partial | CacheBuilder, MeshCache | refinement: every step of the builds simulates steps of the cache of C22-C24 and keeps a relation to an abstract track (which build filled which file); whole builds and the fact that files are never refreshed follow by induction | data, elevation, exception |
| C95 | An imported OSM file is what the tiles show | partial | Import, OsmXml, OsmStream, ElementStore, MemStore, GeoStore | composition of C93 (text), C72 (visitor), C19 (tiles), C15 (store) and C20 (stores by key) for one import; the refused case follows from the order of the calls: nothing is handed to the store before the text is read to its end | missing |
| C96 | The relations of a file become the elements they describe | partial | Resolve, Multipolygon, Building | the state of the resolver is described by which relations are done and what is pending of those on the stack; one call of resolve adds the relation and what it reaches (well-founded induction over the acyclic relation graph), from which the final state does not depend on the order; the tree of elements is then built by the same induction; C36, C37 and C77 for areas, tags and marks | order, outline |
| C97 | Importing an OSM file with relations stores what becomes of them | partial | Import, Resolve, OsmXml, OsmStream, ElementStore, GeoStore, Multipolygon | C93 for the text, C72 for the maps of the visitor, C96 for the relations, C19 for the tiles; new: the map of relations holds the written ones (fold over fresh ids), the points of assembled areas are points of the member lines, so everything is on the globe (induction over the tree of elements) |  |
| C98 | Builders get exactly what the stylesheet says of an imported file | partial | LoadTile, MapCss, Style, Import, GeoStore, QuadKeyBuilder | C60 for the text of the stylesheet, C28 for what the rules say, C97 for the import, C26 (exact version) for the calls; new: the style provider asked by store and builder says what the rules say, both steps composed |  |
| C99 | Surfaces look as their style says, and those of neighbouring tiles fit together | partial | Surface, MeshBuilder, Noise, Color, Mercator | refines C73 (meshes show what was added) with the real heights, colors and texture coordinates: induction over the points; C79 for noise, C33 for gradients; borders by computing with the boxes of both tiles. Violated for the colors of walls, which are taken at longitude and height (MeshBuilder.cpp:210-211) instead of longitude and latitude | wall_color |

## What is missing, per property

* **C01** (proved): Refinement to a timestamped map.
* **C02** (proved): Any hash function; NUL-free strings, assigned ids, data file up to 4 GB.
* **C03** (proved): Restarts are operations of the history.
* **C04** (partial): The code violates the full statement for strings with NUL and for ids which are asked for before they get their string; witnesses proved for every hash function. Ids which never get a string may be asked for.
* **C05** (partial): The code violates the full statement for torn index records and index-before-data; the rest is proved.
* **C06** (proved): All schedules of small steps; sequentially consistent memory under the mutex is assumed.
* **C07** (partial): Round trip for all nested elements whose counts fit 16 bits; elements of unknown kind are refused at any depth; the truncation of larger counts is proved as a violation.
* **C08** (proved): For every float conversion; names without NUL (the NUL case is proved to fail).
* **C09** (proved): The path determines directory, tile and extension for all valid tiles.
* **C100** (partial): Import of the text of an OSM file into a store on disk, restart, registration in any order, any number of tile searches; second theorem: up to the calls of builders. Missing: coordinates which are not doubles, elements with more than 65535 tags, points or members, tiles with 4 GiB of data, words whose number is the one found in memory which is not set, text searches in between (all of C16), and what C97 and C98 leave open (unresolvable relations, ids which are there twice). I/O errors are not modelled. C100_violated_cancelled: a cancelled import for levels of detail into a store on disk always fails, as ranges cannot be erased.
* **C101** (partial): proved for all histories C16 covers, all threads, all orders of steps in which no thread begins a tile while another one searches it, in particular whenever the threads have different tiles: results are right, nothing fails, and a thread which gets enough steps finishes. Violated when two threads search one tile at once: they share the positions of its files (PersistentElementStore.cpp:148-164), so a search finds nothing, or an element with the id of another one. Missing: saves, text searches, erasures and cancelled searches at the same time; memory is sequentially consistent, each read is one step
* **C102** (partial): Stores in memory. What is found is, up to order, what the tiles of box and levels show, filtered by words and boxes; after an import it is what was found before and what is seen of the file. Nothing on the map that is stored unclipped in one of the levels is missed. Violated: an element is found once for every tile and level which stores it. Left out: what C18 leaves out (queries whose or-words occur in no element of a tile while there are and-words, more than 1048544 elements of a tile with not-words, words with equal numbers), what C97 leaves out, elements without points; the words of imported elements are those of the tags if the string table gives the texts back (C02).
* **C103** (partial): Importing a PBF file is the same function of all stores as importing an XML file of the same map. Parameters: decoding of protobuf messages and zlib. Missing: dense nodes in blocks with offsets and uncompressed blocks (C49 violated), maps whose ways come before their nodes, rounding of sums of doubles. Files which are cut behind the size of a part and files with a damaged part are refused. Violated: a cut inside of the size, an empty or missing file are imported without error; a block of more than 32 MiB is written behind the buffer.
* **C104** (partial): The import of documents which are as they should be is proved. Missing: what C58 excludes (heights, collections of the same name or with dots), stores on disk, reading the JSON text. Violated: a document with a tree which is no feature (MultiPoint, GeometryCollection, positions with heights) is refused, but everything before this tree stays in the stores.
* **C105** (partial): The import is proved for points, lines of one part and, if the number which is read behind the part table exists, polygons. Missing: logical fields, stores on disk, the shapefile library. Violated: a record which cannot be read leaves all records before it in the stores; lines of several parts and points together are left out silently; polygons read behind the part table.
* **C106** (partial): Told: what was there and the new element, for all tiles and states of stores in memory, for tags in the order of their numbers, strings which the table gives back (C02) and ids which are not there twice in the tile (C26). Violated for tags in another order: nothing is stored, no error (C106_violated_order). Builders of the library do not throw in the model; numbers are exact.
* **C107** (partial): For all histories. Reading is shown for stylesheets of the grammar of C60. C107_stale: after a change of the file the old declarations are still told. The model has the calls registerStylesheet, registerInMemoryStore, addDataInElement, addDataIn* for OSM XML and getDataByQuadKey.
* **C108** (partial): All schedules of all threads. Up to the first data race the answers are right; there is no race if the keys are in the table or have no value, or if calls do not overlap. Violated: whenever a thread asks for a key which is to be filled in while another thread asks for any key, some schedule races (undefined behaviour), as the first find is done without the lock. The SRTM provider, which fills in several cells at once, is not covered. Tiles without file or without heights are reported.
* **C109** (partial): For all gradients written with colors of six digits or by name and percentages of one to three digits with the sign. Violated for percentages without sign (the last digit is lost), px, fractions, rgb(...), three digits and, alone, names which begin with gradient. The conversion of digits to numbers (boost) is a hypothesis; numbers are exact. C109_violated_digit: one digit without the sign is refused.
* **C110** (partial): After an element was added, a search for words tells what it told before and the matching parts of the element, each once per tile, and hasData answers by what is to be seen. Missing: tags which are not in the order of the string table (C106_violated_order), queries with both and- and or-words, elements which the tile cuts into pieces (stored as relations without tags and not found, C110_violated_pieces), stores on disk, cancellation.
* **C111** (partial): From the text of a stylesheet and an OSM file to the meshes of buildings: the style which the builder reads is the one which the rules describe, and the callback gets one mesh per building with walls, roof and floor at these heights with these looks, without gaps if the parts are above the ground (in any order of the elements). Missing: roofs other than flat, pyramidal and none, walls other than flat ones, texts of declarations which cannot be understood, what C98 leaves open; gradients and textures are a function of the declared texts. Violated: an area with building: true and no roof-type reads the end iterator of the map of roofs.
* **C112** (partial): Missing: gradients and textures are a parameter of the model, the clipping library is a contract (C83), points in paths which are too small, and what C28, C31, C70, C84, C85 and C98 leave open. If no element names the terrain builder, it is never called and there is no ground at all (said in C112_file_partial); an empty name of a layer is undefined behaviour (C84_violated_empty_name).
* **C113** (partial): Legible colors (a name or six hexadecimal digits, or a gradient of them whose last stop is in the second half, for the ground at the end) and numbers of textures which fit in 16 bits. Buildings with flat or pyramidal roofs and flat walls, as in C111 (other roofs and walls: C117_colors_partial). Where a text cannot be read, the code throws (C113_violated_no_color); the composed model then has a look without color, so nothing is claimed. Violated: gradients of several colors on a building show one mixed color.
* **C114** (partial): Over the real numbers. Styles which cannot be read, and lengths below a centimetre, are left open; elevations are a parameter. Pillars along a way stand too high (C82_violated_ground). Colors need a legible text whose last color is in the second half of the gradient. Walls without length and gap, and pillars without step are undefined (C114_violated_no_length).
* **C115** (partial): Over the real numbers; elevations and the random generator are parameters. Styles which cannot be read, L-systems which cannot be drawn (unknown words, brackets without partner, scale zero) and steps below a centimetre are left open, as are texture coordinates. Nothing is said about turns after pitch and roll commands, which leave direction and right not perpendicular (C62_violated_pitch). Colors with commas cannot be declared (C115_violated_gradient). C115_unknown: names of L-systems which the stylesheet does not have are refused.
* **C116** (partial): All schedules of all threads, any tiles and files. Up to the first data race each answer is the cell as its file gives it or the exception of a cell of the tile, and certainly the cell if all files of the tile are good; there is no race if the cells asked for are loaded or if calls do not overlap. Violated: if a thread has to load a cell while another one asks for anything some schedule races (undefined behaviour), as the first find is done without the lock; and a call refused because of another cell of the tile is answered when it is repeated. Heights: north and east of one degree, and sample values which survive the decoding (C41). Memory exhaustion and changes of files are not modelled.
* **C117** (partial): Each roof (none, flat, pyramidal, dome, round, mansard, skillion) with each kind of walls (flat, cylinder, sphere), from part to mesh to file and stylesheet, with the colors and textures of C113 (C117_colors_*). Missing: mansard and skillion roofs above several rings, outlines outside RoofAble and FacadeAble, gaps of round roofs and curved walls, texts of a stylesheet which cannot be understood, doubles
* **C118** (partial): From the tree of a GeoJSON text or the records of a shape file with a stylesheet to builder calls, in memory and on disk with a restart; buildings of GeoJSON to meshes with colors. Missing: what C104, C105, C16 and C26 leave open (refused files, ids which are there twice, sizes of files), properties which are there twice, doubles
* **C119** (partial): C98, C100 and C117 with hypotheses about the texts only: that the tags of resolved relations, members, marked parts of buildings and clipped pieces can be read is derived from the strings of the file. Missing: files where an element has a key twice, strings which the table does not give back (C04), ids which are there twice, unresolvable relations, and what C100 and C117 leave open.
* **C12** (proved): Over the reals; includes numerical bounds at the latitude limit.
* **C120** (proved): Any hash function, any history with restarts, any schedule of threads; NUL-free strings, data file up to 4 GB, ids which are assigned before they are asked for or never (otherwise see C04). Sequentially consistent memory under the mutex is assumed for threads.
* **C121** (partial): Houses, ground, barriers, trees and lamps of one load of a tile, from OSM (XML, and PBF files with the same content), GeoJSON and shape files in stores on disk after a restart. Missing: what C112, C114, C115, C117, C118 and C119 leave open (declarations which cannot be understood, shapes the generators cannot draw, keys or ids which are there twice, rounding of floating point numbers).
* **C122** (partial): The condition of C121 that no id is there twice is derived from the text of the file: no id is used twice, none is zero, relations have tags. If every rule of the stylesheet asks for a tag and none is for a given id, only things with tags need different ids. Missing: files where two things with tags share an id (the code loses one of them, see C26_violated theorems), and what C121 leaves open.
* **C123** (partial): What C97, C119, C121 and C122 assume about relations (ResolveSpec.Sound) follows from a condition on the written file; that areas of multipolygons are assembled needs no condition on their ways. Missing: relations which contain multipolygons other than those of closed ways with one outer way or buildings with an outline, nodes or missing members, rounding of double in the test for rings, what C121 leaves open.
* **C13** (partial): Exact for the half-open ownership of tiles, lods 0..19; tiles only touched on their east or south border are not visited, proved as a violation.
* **C14** (proved): Any linearly ordered field.
* **C15** (proved): Every history of saves, tile and text searches, hasData and erase.
* **C16** (partial): Exact equality with the in-memory store for every history of saves, tile searches, erasures, flushes and restarts; the general theorem also covers text and cancelled searches while the files stand at the end. False as stated: text and cancelled searches leave the shared file positions in the middle, hasData is true after a search, an indeterminate bitmap key may hit a word. I/O errors are not modelled.
* **C17** (partial): Import into at most twelve tiles, restart, any text searches: exact answers; tile searches after restarts are exact by C16. False as stated: saving into a non-empty tile after a restart or cache eviction spoils its text index.
* **C18** (partial): Exact through tokenizer and compressed bitmaps when the query has an or- or and-word and, if both, an or-word occurs in the tile; the two excluded cases are proved violations.
* **C19** (partial): Exact set of tiles for all elements, ranges and styles over real coordinates; tile borders as in C13. The style provider is represented by three facts per lod, the clipping library by an arbitrary function.
* **C20** (partial): For every store implementation and history whose additions use registered keys. Adding under another key is undefined behaviour (null pointer), proved.
* **C21** (partial): Other tiles and keys are as before and nothing of the import is visible; fails for data the tile had before the import (erased) and for lod ranges (throws, and the imported data remain), both proved.
* **C22** (partial): A hit after any allowed history (crashes, write errors, cancellations, interleaved builds of different tiles) means that a healthy build of this file ended without cancellation. Missing: a file whose status byte never reached the disk is compared with an uninitialised variable (violation proved).
* **C23** (partial): Records of unknown kind in cache files are refused. Elements come back exactly, meshes in single precision; the violation for other doubles is proved.
* **C24** (partial): Builds of different tiles do not disturb each other in any interleaving. Two overlapping builds of the same tile use a destroyed stream (violation proved), also without threads after an exception.
* **C25** (proved): All call sequences in which builders release only meshes they hold.
* **C26** (partial): Every tile build: life cycle of builders, at most once per id, only styled elements, nothing lost when ids are unique. False as stated: a node and a way sharing an id are one element for the builder, and a clipped element present in two stores is built twice; both proved.
* **C27** (partial): For every clipping library function (the library is a parameter). Fails for relations reduced to one member (tags of the member are lost) and for ways crossing a tile without a vertex in it (dropped); both proved. Unchanged-inside holds for relations with at least two members.
* **C28** (partial): Last applicable declaration wins for every stylesheet and element (tags sorted, keys named by the stylesheet not repeated), and for the canvas if canvas selectors have no conditions. Stylesheets are accepted exactly if the names, operations and ids of their selectors are understood. False as stated: among rules naming one element id the first wins, and conditions of canvas selectors are ignored; both proved.
* **C29** (partial): Every operator, for sorted tags in which keys named by the stylesheet are not repeated (other keys, such as the marks of parts of buildings, may be). Unsorted tags from the C API and repeated keys fail, both proved.
* **C30** (partial): For every stylesheet and every edit replacing one value by another in any declarations (rules with conditions, for ids, for the canvas), or giving a condition another operation or value in any selectors: equal tags mean equal styles everywhere, unless the two texts collide under the hash. False as stated: the kind of element is not part of the hashed text, proved.
* **C31** (partial): From the text of the expression through the grammar to the value, for all expressions, spacings and tag sets having the named tags. An absent tag silently reads as an unassigned string, an empty text read as number is out of bounds; both proved.
* **C32** (proved): All colors and all integers.
* **C33** (partial): Any ordered field with floor instead of doubles. Truncation may put a channel one below both stops; after the last stop the color is extrapolated, up to undefined behaviour; all proved.
* **C34** (partial): Proved, over any ordered field and for a way whose nodes are all present: it becomes an area exactly when it has more than three coordinates and first and last coincide within the code's tolerance, otherwise a way with the coordinates of its nodes; an area has the last point removed and is not clockwise. Violated: a missing node is a null pointer access, and a closing point given twice stays in the area.
* **C35** (partial): Proved: without cycles of relations resolution ends for every order, and plain relations have each member at most once in member order. Violated: a ring of three relations and a building naming itself recurse without end (for every depth), and a building with an outline reached twice gets its parts twice.
* **C36** (partial): Proved, from the members of a relation to its areas: one closed outer line and closed inner lines give one area each; otherwise every ring is closed and consists of exactly the segments of its ways; nothing is made if a member is missing; ways left over form one open chain, one area per ring with the right orientation. With the test for rings which the code uses, in exact arithmetic, rings never contain each other and an outer ring is always found. Violated: an open chain is dropped silently; if the test let two rings contain each other, a null pointer would be used (whether rounding can do this is open). Assumes that the point comparison distinguishes the points in the data.
* **C37** (proved): mergeTags yields strictly increasing keys, only tags of either list, and every key of both, for any correct sorting routine. Which value wins for a key in both lists is not claimed: std::sort is not stable.
* **C38** (proved): For every grammar, start word, number of generations and random generator which picks one of the given weights. The probabilities of the choices are not modelled.
* **C39** (partial): Proved: a bracketed section restores state and stack, and balanced systems never restore from an empty stack in any generation, if brackets have no productions themselves. Violated: a production for a bracket underflows the stack, and the appearance in use is not restored.
* **C40** (partial): For every list of at least four heights and every tile not smaller than the grid in units of 1e-7 degrees, and every coordinate not south-west of the tile corner, the elevation is computed without reading outside of the heights, lies between the heights of the corners of the grid cell which contains the coordinate and equals the height at a grid node. The differences of coordinates fit into 32 bits. One to three heights are undefined behaviour (conversion of infinity). Over an ordered field, rounding of double is not modelled.
* **C41** (partial): At least one degree north and east, with the files of the tile present and well formed, the height is the bilinear interpolation of the four samples around the coordinate of the file which covers it, whatever cells are in memory. Needs that the low bytes of the file are below 128 where char is signed, or the high bytes where it is unsigned: otherwise 200 is read as -56, respectively -1 as 65535. Next to the equator and the zero meridian and in the south and west another file is read; in the south memory behind the data is read. Missing cells and cells of another size are reported.
* **C42** (partial): Split points are points of the segment, start at its start, end within epsilon of its end, are strictly ordered along it, and every grid line strictly between neighbours is within epsilon of the first of them. C42_slope: the excluded slopes below epsilon do not occur between integer points. C42_append: a segment which starts where the result ends continues it without repeating the common point. C42_contour_partial: the points of a whole contour go around it edge by edge, from the first vertex back to within epsilon of it, past every vertex, split by the grid also around the corners. Missing: rounding of double, grid values by repeated addition.
* **C43** (proved): For every mesh built by any sequence of operations (polygon, plane, triangle, texture, copy, clear, change of heights). Assumes that the triangle library returns triangles between the points it returns. C43_violated_back: the back side option of triangles, which no caller sets, gives triangles with wrong corners (the mesh stays well formed).
* **C44** (proved): The map of every built mesh consists of records with sorted, bounded ends; writing covers all coordinates and gives the new ones the new texture; copying keeps the textures of both meshes.
* **C45** (partial): For every list of non-empty contours and holes: each outer contour, and each hole which is kept, is one closed cycle over exactly its points (closing point dropped), and every point belongs to exactly one contour. C45_violated_empty: an empty contour is undefined behaviour.
* **C46** (partial): The default rectangle always contains the points, and is the smallest if some point has a positive x and some a positive y. C46_violated_negative: if all x are negative, xMax is the smallest positive double (numeric_limits::min) and the rectangle is not the smallest.
* **C47** (partial): All strings; the color table is transcribed. Zero, two or four hex digits read behind the end of the string when operands are evaluated left to right, proved.
* **C48** (partial): Any level above zero gives the base icosahedron divided exactly once: 20*4 (12*4) triangles, which is right for level 1. C48_violated_level: level 0 gives nothing and every level from 2 on the same 80 triangles; dome roofs and spherical facades request level 2.
* **C49** (partial): Simple nodes, way references and relation members are decoded to the encoded values; dense nodes if the block has no offsets. C49_violated_offset: a latitude offset is added once more for each further dense node. C49_violated_raw: an uncompressed blob is read from the bytes of the enclosing message. Protobuf wire decoding and zlib are not modelled; coordinates are rationals instead of doubles.
* **C50** (partial): The polygon is split in exactly its parts, whatever value is behind the part table; every proper table is covered. C50_violated_read: that value is read for every polygon whose last part has two or more vertices. C50_violated_start: a table not beginning with 0 stores in a part which does not exist. C50_decreasing: shapes whose parts decrease are refused.
* **C51** (partial): With meaningful arguments the request is made and its exception reported exactly once; every nonempty list of coordinates is exactly one of node, way and area. C51_violated_lods: for lods outside the supported range an exception escapes. C51_violated_elevation: exceptions of the elevation query for a quad key escape. C51_violated_lengths: odd numbers of tag strings or vertices and no vertices are undefined behaviour.
* **C52** (partial): The directories of tiles exist for lods 1 to 16. C52_violated_lods: lods 17 to 19 are accepted but have no directory.
* **C53** (proved): lexicalCast and parseDouble are not modelled.
* **C54** (partial): Proved over every field: rounding of doubles is not modelled. Violated: the in-place function rotate is not the product.
* **C55** (proved): Over an ordered field instead of doubles.
* **C56** (partial): The empty bitmap reads one uninitialised key: proved as a violation; all others round-trip.
* **C57** (proved): For every well formed region and tree mesh, frequency and chunk size. The generator of the tree and the elevation are parameters.
* **C58** (partial): Over the property tree of the document (reading JSON text is not modelled). Every feature is delivered with id, sorted tags and its geometry, for documents with different collection names without dots and positions of two numbers. Every tree is delivered or refused with an exception, and refused if a feature is not one. Violations: positions with height and names with dots end the import with an exception; lines are delivered in the opposite direction; of collections with the same name the first is delivered twice; the sign of ids is lost.
* **C59** (partial): Bit-level model of the run-length encoding. or/and exact without bound; xor exact below position 1048544 and proved wrong beyond; setting a position after reading back from disk is proved to corrupt the bitmap.
* **C60** (partial): Texts written for a stylesheet, with any gaps and comments and nested imports, are parsed to it (some characters at the begin of words are not covered); selectors without brace, rules without declarations and zooms without number are rejected; so are stylesheets which name missing or rejected textures and L-systems, or import rejected stylesheets. Violations: imports of missing files are ignored; text which begins with no keyword and selectors without condition are ignored with everything which follows; zooms above 255 are taken modulo 256; a space before an operation becomes part of the key; a missing semicolon makes the following rules part of the value; self import is an endless recursion. C60_rejected_open: references which are not closed are rejected.
* **C61** (partial): Proved for plain relations without cycles whose members have different numbers: exactly the present members which do not name the relation. Violated: members of different types with the same number, the later one is lost.
* **C62** (partial): Proved for programs without pitch and roll over every field. Violated: pitch and roll turn about the same axis as left and right, so no program ever leaves the plane, and the vectors do not stay perpendicular.
* **C63** (partial): Proved over the real numbers for angles up to 90 degrees which are not very small. Violated: for larger angles both quaternions are negated instead of one, and for almost equal ones the result is not unit.
* **C64** (partial): A point is reported exactly if its distance to the line of a side times the length of the side is below 1e-8, so every point of the border is reported. C64_violated_near: in tiles of level 19 points 1e-5 degrees inside are reported as well.
* **C65** (partial): Spheres of every level and cylinders of every segment count are closed; cones if the second size is exactly zero. C65_violated_noise: with vertex noise (an option no caller sets) neighbouring triangles come apart. Coordinates are elements of a field instead of doubles.
* **C66** (partial): A line of one part is delivered with all vertices in order as area or way, a point as node. C66_violated_parts: lines of several parts are dropped. C66_violated_empty: a line without vertices is undefined behaviour.
* **C67** (partial): Nodes, ways and areas are delivered completely, with valid strings. C67_violated_relation: a relation is exported as single point at the origin.
* **C68** (proved): Also rings contain each other by the same rule, and the point of a hole is inside of it. Over an ordered field instead of doubles.
* **C69** (partial): Over the real numbers. The distance is the central angle of the two points times a radius between the polar and the equatorial one. Offsets in metres are right up to the ratio of the radii (0.34 percent), metres north and, up to a fortieth of the circle of latitude, metres east up to 0.2 percent. Points between two points and lengths scaled to the size of a tile are right. Violated: the distance takes the radius at the difference of the latitudes, so an offset at a pole is always longer than given, proved.
* **C70** (partial): Over the real numbers with lexical_cast as a parameter; in a box metres are right up to the ratio of the radii of the earth. Violated: a blank before the dimension gives zero, and expressions with a dimension are not evaluated; both proved from what lexical_cast refuses.
* **C71** (partial): Over any field, given sine and cosine of half the angle, for perpendicular unit vectors. Violated for pitch and roll: the axis is not normalised, so the opposite command does not lead back, proved with a witness.
* **C72** (partial): For all files of nodes and ways without repeated ids where every way comes after its nodes; relations are C35 and C36. A way which comes twice, first closed and then open, is handed on twice, proved. A way with a missing node is undefined behaviour, see C34.
* **C73** (proved): Over any numbers with an addition. The triangles of the triangle library, texture scales, colors and elevations are parameters. The option backSide of addTriangle (never used) is C43_violated_back.
* **C74** (partial): Equality of what the callback gets with the meshes of the parts, errors included, for all elements whose multipolygons consist of areas. A way or node in a multipolygon throws and stops the tile (C74_violated_way); a relation without any building delivers an empty mesh (C74_violated_empty). Style values are a parameter.
* **C75** (partial): For flat, pyramidal and no roofs and flat facades over an ordered field, with the texture of every face; the first ring is an outline; holes without a point inside are left out. Unknown types of roofs read the end of a map (C75_violated_roof). Round, mansard and skillion roofs with flat facades are C86, C87 and C88; domes, cylinders and spheres are C89.
* **C76** (partial): If the triangles of the library have the rings as border. Parts without a floor lack only the floor (C76_faces). C76_roof_partial: with any roof whose border are the rings (C86 to C88). Rings which run clockwise are turned inside out (C76_violated_clockwise); pyramidal roofs above holes leave gaps (C76_violated_hole).
* **C77** (partial): Value lookup and the mark are proved for all sorted tags. hasTag is true for a missing key if the value is the default (C77_violated_default); unsorted tags are not found (C77_violated_order).
* **C78** (partial): Over an ordered field with a square root instead of doubles. The icosahedron is regular, all triangles of a sphere of level one or more are images of outward triangles of the unit sphere under the requested scaling and translation; levels above one are not refined further (C48_violated_level). Cylinders: number of triangles, all corners. Missing: rounding; that the rotations used for the rings are right is C54.
* **C79** (proved): Over an ordered field (continuity over the real numbers) instead of doubles. Coordinates times frequency have to fit into an int; otherwise the conversion is undefined behaviour in the model.
* **C80** (partial): Over an ordered field with an exact square root instead of doubles. Generators of single trees and lamps (see C90 for what they draw), elevations and distances are parameters. Ways without coordinates read their first one (C80_violated_empty), a step of zero is an undefined conversion (C80_violated_step); areas get nothing. Lamps beside a way leave out the first and the last spot. Copies keep colors and textures.
* **C81** (partial): Over an ordered field with an exact square root instead of doubles. Pieces need a direction longer than epsilon; length and gap of zero are an undefined conversion (C81_violated_length). Neighbouring boxes are not joined. Colors and textures of all faces are those of the look.
* **C82** (partial): Over an ordered field with an exact square root instead of doubles. Pillars along a way stand too high by the elevation of the first coordinate (C82_violated_ground); the partial theorem says so, everything else holds, including colors and textures. Steps and lengths have to be positive. Exceptions from styles, which leave the style set, are not modelled.
* **C83** (partial): Relative to a contract of the clipping library (difference, union and tidying enclose the right points by the nonzero rule), which a concrete library over grid cells meets; points in paths below the area tolerance are excluded. No gaps holds for all regions; no overlaps needs regions which do not run around the point in the wrong direction: otherwise windings cancel and two pieces overlap (C83_violated_direction).
* **C84** (partial): Same contract and restrictions as C83; std::sort is a parameter with its contract. Among elements without layer smaller areas do not win as intended, since their area is never computed (C84_violated_area); a layer with an empty name is undefined behaviour (C84_violated_empty_name).
* **C85** (partial): Over an ordered field instead of doubles; clipping, triangulation (indices in range), colors, noise, elevation and the trees of a forest are parameters. The textures hold if no piece with its own mesh has walls: such walls are in the common mesh, where nothing has their texture (C85_violated_texture). C85_unknown_extras: extras which are not known are refused.
* **C86** (partial): Over an ordered field instead of doubles; square root, sine, cosine and the rotation by an interpolated quaternion are assumed to be exact (C86_library: over the real numbers they are, with the quaternions of the code). With more than four corners the roof does not cover the outline (C86_violated_corners), above a trapezoid it leaves the outline (C86_violated_trapezoid).
* **C87** (partial): Over an ordered field with an exact square root instead of doubles; one outline; the offset operation of the clipping library is a parameter. The first corner of its result has to be next to a corner in the first half of the outline, otherwise the sides are twisted (C87_violated_twist). Several rings are handed to the library as one path (not covered).
* **C88** (partial): Over an ordered field with exact square root, sine and cosine instead of doubles; one outline whose corners are the points of the triangle library, in this order; the corner in the back must not be on the line through the front side (the code only excludes its first corner). Degrees are multiples of 22.5 without fractions, in coordinates of longitude and latitude. With several outlines everything is drawn once for each of them, with walls between them (C88_violated_outlines).
* **C89** (partial): Over an ordered field with exact square root, sine and cosine (addition theorems) instead of doubles; roofs are none, flat, pyramidal or domes, facades flat, cylinders or spheres; each ring has a point east of Greenwich and one north of the equator, holes are in the rectangle of the outline. A dome sticks out below the top of the walls, whatever its height (C89_violated_dome), a sphere has its middle at the bottom of the part (C89_violated_sphere), and around outlines west of Greenwich the cylinder reaches to the zero meridian (C89_violated_west).
* **C90** (partial): Shape of cylinders and cones for states with perpendicular unit vectors, which holds without pitch and roll (C90_frame_partial, see C62). Over an ordered field with exact square root, sine and cosine instead of doubles; the random selection of alternatives and the lookup of gradients and textures are parameters; the text of the L-system is not parsed. Cylinders smaller than epsilon in both width and length may be without cap. Going back to a saved state does not bring back its appearance (C90_violated_restore), so the appearance of the state is shown without such commands only (C90_state_partial). C90_refused: too short lists of styles end with an exception.
* **C91** (partial): C91_read describes exactly which texts are read as which L-system, for all texts, and C91_refused that all others are refused. Partial as the described language deviates from the claim (the four C91_violated theorems), and as numbers are exact rationals instead of doubles, inf and nan are left out, and characters are code points instead of bytes.
* **C92** (partial): For all texts. Partial as the code deviates from the claim (the four C92_violated theorems), and as the default rectangle of an atlas, whose conversion to 16 bits is undefined for every atlas, is replaced by four arbitrary numbers (parameter outside); the result is no texture for all of them. Characters are code points instead of bytes.
* **C93** (partial): For all texts. Partial as the code deviates from the claim (the C93_violated theorems), as numbers are exact instead of doubles, and as inf and nan, which Spirit reads, are refused in the model. Characters are code points instead of bytes. C93_read asks for the usual begin of a file (Head).
* **C94** (partial): for every builder and every history in which builds of the same tile do not overlap and recorded builds do not throw. The builder is a parameter, visits are single steps. Violated: a file is never refreshed, so later data and other elevation data are ignored (kept_partial in general, two witnesses), and an exception of a builder leaves the tile broken.
* **C95** (partial): from the characters of the text to the answers of tile searches, for all three kinds of import, all tiles and all previous contents. Partial: files with relations are covered only by the refused case and by the violation; no number twice; places on the globe; exact numbers; stores in memory (the refused case: every kind of store); the token is not cancelled. The clipping library, the string table and the decisions of the stylesheet are parameters.
* **C96** (partial): C96_relations_partial: one element for every entry, as the specification Becomes says, the same for every order of the relations. Missing: files excluded by Sound (cycles: C35_violated_cycle; buildings and multipolygons with missing members which other relations name: C35_violated_twice; outer areas which building relations name: C96_violated_order), and lines which form no areas; exact numbers; stack deep enough. C96_hidden: what is hidden. C96_multipolygon: closed lines, by C36. C96_violated_outline: an outline without parts is not drawn.
* **C97** (partial): Partial: relations which ResolveSpec.Sound excludes (cycles, buildings or multipolygons named by other relations with missing members, outer areas of untagged multipolygons which are parts of buildings), ids used twice, and a stack which is too small are not covered; the stores are in memory.
* **C98** (partial): Composition of C60, C28, C97 and C26 for in-memory stores: from the texts of stylesheet and file to the calls of builders. Missing: two styled elements with the same id in a tile (false, see C26), files whose relations cannot be resolved (C96), texts which are not well formed, persistent stores.
* **C99** (partial): Over real numbers, for coordinates whose products with frequencies are in the range of int and gradients which end at 1 or later or have at most one color. False for walls: their color depends on the height of the ground (violation proved). Missing: both sides of triangles with a back side (see C73), gradients which end before 1 (see C33), rounding, the triangle library, points on a border of tiles which the library does not mark.

## Code which is not modelled

Of `core/src` (test code, `core/lib` except the compressed bitmaps, the Unity scripts and the build system are not part of the model):

* The clipping library called by `builders/buildings/roofs/MansardRoofBuilder.hpp`: its offset operation is a parameter.
* The clipping library called by `builders/terrain`: its operations are parameters with the contract `TerrainSpec.Exact`; `ClipperEx` is modelled (C83).
  `RegionContext::create` is a parameter. `ExteriorGenerator.cpp` does nothing.
* `builders/generators/LSystemGenerator.cpp` except for the turtle (C39, C62, C71); `lsys/LSystemParser.cpp`.
* `formats/osm/xml/OsmXmlParser.cpp`: the grammar of XML; the calls it makes are modelled (C72).
* `mapcss/TextureAtlasParser.cpp`, and the parts of `StyleProvider.cpp` about gradients, textures and L-systems.
* `utils/SvgBuilder.hpp` (debugging), `builders/EmptyBuilder.hpp`, counting visitors (tests).
* `NoiseUtils.cpp:perlin3D` (used by tests only).

## Axioms each theorem depends on

* none (2): C11_default_throws, C66_point
* `Classical.choice`, `Quot.sound`, `propext` (454): C01_lru_bounded, C01_lru_no_ub, C01_lru_refines_spec, C02_C03_string_table_refines_spec, C02_round_trip, C03_reopen_unobservable, C04_string_table_partial, C04_unassigned_partial, C05_crash_partial, C05_torn_index_reads_partial, C07_concatenated_partial, C07_element_round_trip_partial, C07_refused, C07_write_injective, C08_lengths, C08_mesh_round_trip, C08_violated_nul_name, C09_invalid_tiles_can_collide, C09_tile_path_injective, C100_load_partial, C100_restart_partial, C100_violated_cancelled, C101_different_tiles_partial, C101_parallel_partial, C102_find_partial, C102_found_partial, C102_import_partial, C102_violated_twice, C102_words_partial, C103_cut_partial, C103_damaged, C103_import_partial, C103_same_partial, C103_violated_buffer, C103_violated_cut, C103_violated_empty, C104_import_partial, C104_text, C104_violated_refused, C105_import_partial, C105_pair, C105_violated_dropped, C105_violated_polygon, C105_violated_refused, C106_returned_partial, C106_told_partial, C106_violated_order, C107_failed, C107_file_ignored, C107_missing, C107_no_number, C107_read_once_partial, C107_stale, C108_alone, C108_heights_partial, C108_live, C108_sequential, C109_nothing, C109_shown, C109_single_partial, C109_stops_partial, C109_surface_partial, C109_threads_partial, C109_violated_digit, C109_violated_fraction, C109_violated_prefix, C109_violated_px, C109_violated_rgb, C109_violated_unit, C10_comparator_is_lexicographic, C10_strict_total_order, C110_found_partial, C110_has_data_partial, C110_text_partial, C110_violated_pieces, C111_file_partial, C111_meshes_partial, C111_style_partial, C111_unique_partial, C111_violated_no_roof, C112_file_partial, C112_ground_partial, C112_style_partial, C113_file_partial, C113_ground_partial, C113_meshes_partial, C113_paint_partial, C113_violated_gradient, C113_violated_no_color, C114_colors_partial, C114_file_partial, C114_meshes_partial, C114_style_partial, C114_violated_no_length, C115_file_partial, C115_meshes_partial, C115_style_partial, C115_unknown, C115_violated_gradient, C116_heights_partial, C116_live, C116_sequential, C117_closed, C117_colors_file_partial, C117_colors_partial, C117_file_partial, C117_meshes_partial, C117_part_partial, C118_json_houses_partial, C118_json_partial, C118_json_restart_partial, C118_shape_partial, C118_shape_restart_partial, C119_houses_partial, C119_load_partial, C119_restart_partial, C11_lod_range, C11_lods, C120_dictionary, C120_threads, C120_words, C121_json_restart_partial, C121_osm_restart_partial, C121_scene_partial, C121_shape_restart_partial, C122_ids_partial, C122_osm_partial, C122_tagged_ids_partial, C122_tagged_osm_partial, C123_osm_partial, C123_resolved_partial, C12_coordinate_in_its_tile, C12_no_clamping, C12_owner, C13_invalid_box, C13_no_duplicates, C13_violated_border, C13_visits_owners_partial, C14_center, C14_empty_box, C14_violated_out_of_range, C15_in_memory_store, C16_allowed_histories_partial, C16_persistent_store_partial, C16_same_as_in_memory_partial, C17_search_after_restart_partial, C18_never_fails, C18_text_search_partial, C18_violated_only_not, C18_violated_unmatched_or, C19_no_coordinates, C19_once_per_tile, C19_result_partial, C19_store_in_box_partial, C19_store_in_tile_partial, C19_store_range_partial, C19_violated_crossing_way, C21_import_only_in_tile, C21_range_always_fails, C22_only_complete_partial, C23_C24_replay_partial, C23_damaged, C23_violated_precision, C26_all_built, C26_at_most_once, C26_exactly_partial, C26_life_cycle, C26_nothing_lost_partial, C26_only_styled, C26_violated_clipped, C27_apart_dropped, C27_inside_unchanged_partial, C27_leaves_keep_tags, C27_points_in_tile, C27_relation_keeps_tags, C27_same_id, C27_violated_crossing_way, C27_violated_single_member, C28_accepted, C28_canvas_partial, C28_cascade_partial, C28_hasStyle, C28_identifier_partial, C28_kind, C28_reason, C28_refused, C28_text, C28_violated_canvas_condition, C28_violated_id_order, C29_match_partial, C29_operators, C29_violated_repeated_key, C29_violated_unsorted, C30_condition_partial, C30_value_change_partial, C30_violated_kind, C31_concatenates_partial, C31_numeric_partial, C31_unsupported_reported_partial, C31_violated_missing_tag, C32_pack_unpack, C33_at_stop, C33_before_first, C33_between_partial, C33_violated_after_last, C33_violated_far_after_last, C33_violated_repeated_last, C33_violated_rounding, C34_violated_repeated_closing, C34_way_or_area_partial, C35_terminates_partial, C36_areas_partial, C36_areas_total, C36_assembled, C36_contains_east, C36_orientation, C36_relation_rings_partial, C36_relation_simple, C36_rings_partial, C37_merge, C38_comparator, C38_deterministic, C38_rewriting, C39_no_underflow, C40_between_partial, C40_no_overflow, C40_violated_few, C41_key_order, C41_keys, C41_srtm_partial, C41_violated_name, C41_violated_south, C42_append, C42_contour_partial, C42_slope, C42_split_partial, C43_defined, C43_well_formed, C44_copy, C44_map, C44_write, C45_closed_partial, C46_polygon_partial, C47_hex, C47_known_name, C47_not_hex, C47_short_rejected_partial, C47_unknown_name, C48_sphere_partial, C48_violated_level, C49_dense_partial, C49_node, C49_violated_offset, C50_decreasing, C50_parts_partial, C50_relation, C51_classified, C51_reported_partial, C51_violated_lods, C52_cache_partial, C52_store_partial, C52_violated_lods, C54_angle, C54_compose, C54_inverse, C54_isometry, C54_violated_rotate, C55_none, C55_point, C56_bitmap_round_trip_partial, C57_forest, C58_defined, C58_features_partial, C58_refused, C58_violated_dot, C58_violated_repeated, C59_enumerates, C59_or_and_pointwise, C59_pointwise_partial, C59_refuses, C59_violated_xor, C60_parse_partial, C60_rejected_brace, C60_rejected_empty, C60_rejected_file, C60_rejected_import, C60_rejected_missing, C60_rejected_open, C60_rejected_zoom, C60_violated_condition, C60_violated_missing, C60_violated_trailing, C62_frame_partial, C62_violated_pitch, C63_atan2_exists, C63_slerp_partial, C63_violated_close, C63_violated_far, C64_border_partial, C64_complete, C64_violated_near, C65_cylinder_partial, C65_divided, C65_sphere, C65_violated_noise, C68_contains, C68_even_odd, C68_hole, C68_triangle, C69_between, C69_distance, C69_offset_partial, C69_scaled, C69_symmetric, C69_violated_radius, C69_world_east, C69_world_east_near, C69_world_north, C69_zero, C70_absent, C70_metres, C70_metres_in_box, C70_percent, C70_plain, C70_violated_blank, C70_violated_expression, C71_pitch_roll_angle, C71_scales, C71_there_and_back, C71_turn_angle, C71_turns_partial, C71_violated_pitch, C71_violated_roll, C72_every_entry_once, C72_violated_way_twice, C73_copy, C73_paints_copy, C73_paints_plane, C73_paints_polygon, C73_paints_texture, C73_plane, C73_polygon, C73_unique, C75_part_partial, C76_building_partial, C76_faces, C76_part_partial, C76_roof_partial, C76_violated_clockwise, C76_violated_hole, C78_cylinder_points, C78_icosahedron, C78_sphere_partial, C79_bounded, C79_color, C79_continuous, C79_gradient, C79_lattice, C80_delivered_partial, C80_spacing, C81_closed, C81_faces, C81_pieces, C81_wall_partial, C82_delivered_partial, C82_violated_ground, C83_no_gaps, C83_one_piece, C83_violated_direction, C83_ways_apart, C84_owner, C84_violated_area, C85_meshes, C85_tolerance, C85_unknown_extras, C85_violated_texture, C86_arch, C86_border, C86_holes_partial, C86_library, C86_round_partial, C86_violated_corners, C86_violated_trapezoid, C87_border, C87_flat_partial, C87_mansard_partial, C87_violated_twist, C88_border, C88_flat_partial, C88_heights, C88_skillion_partial, C88_violated_outlines, C89_part_partial, C89_violated_dome, C89_violated_sphere, C89_violated_west, C90_frame_partial, C90_generate_partial, C90_lists, C90_node_partial, C90_outwards, C90_refused, C90_turn, C91_read, C91_refused, C91_unique, C91_violated_blank, C91_violated_comment, C91_violated_unknown, C91_violated_word, C92_provider, C92_read, C92_refused, C92_unique, C92_violated_last, C92_violated_range, C92_violated_rest, C92_violated_second, C93_delivered, C93_read, C93_sound, C93_violated_atomic, C93_violated_attribute, C93_violated_comment, C93_violated_empty, C93_violated_escape, C93_violated_lost, C93_violated_relation, C93_violated_way, C94_again_partial, C94_build_partial, C94_disabled, C94_history_partial, C94_kept_partial, C94_violated_data, C94_violated_elevation, C95_import_partial, C95_refused_partial, C95_violated_missing, C96_hidden, C96_multipolygon, C96_relations_partial, C96_violated_order, C96_violated_outline, C97_import_partial, C98_load_partial, C99_color_of_place_partial, C99_east_partial, C99_points_partial, C99_south_partial, C99_texture, C99_triangle_partial, C99_violated_wall_color, C99_wall_partial
* `Quot.sound`, `propext` (110): C04_violated_early_lookup, C04_violated_nul, C07_violated_65536, C08_second_trip_exact, C101_violated_nothing_found, C101_violated_wrong_element, C108_answers_partial, C108_no_race, C108_refused, C108_violated_race, C116_answers_partial, C116_no_race, C116_violated_race, C116_violated_retry, C14_contains, C14_expand_box, C14_expand_is_smallest_cover, C14_expand_order_independent, C14_intersects, C16_violated_after_cancelled_search, C16_violated_after_text_search, C16_violated_garbage_key, C16_violated_hasData, C17_save_without_restart, C17_violated_save_after_restart, C20_dispatch_partial, C21_cancelled_tile_partial, C21_cancelled_tile_persistent_partial, C21_reachable, C21_violated_range, C21_violated_tile_lost, C22_violated_empty_file, C24_violated_after_exception, C24_violated_foreign_end, C24_violated_overlap, C25_clean_and_exclusive, C31_no_ub_partial, C31_violated_empty_value, C32_clamped, C32_sum_clamped, C34_violated_missing_node, C35_once_partial, C35_violated_building, C35_violated_cycle, C36_closed_ways, C36_relation_incomplete, C36_simple, C36_violated_mutual, C37_sorts_exist, C39_section_partial, C39_violated_bracket_production, C39_violated_style, C41_refused, C41_violated_signed, C41_violated_unsigned, C43_triangle, C45_violated_empty, C46_contains, C46_smallest_partial, C46_violated_negative, C49_relation, C49_way, C50_tables, C50_violated_read, C50_violated_start, C51_violated_lengths, C53_endsWith, C53_fileName, C53_format, C53_split, C54_euler_unit, C54_unit, C59_violated_set_after_reread, C60_violated_import, C60_violated_semicolon, C60_violated_space, C60_violated_zoom, C61_members_partial, C62_violated_planar, C66_violated_parts, C67_exported_partial, C67_violated_relation, C70_text, C71_appearance, C71_forward, C72_last_node, C73_paints_shows, C73_paints_triangle, C73_triangle, C74_meshes_partial, C74_violated_empty, C74_violated_node, C74_violated_way, C75_violated_roof, C77_has_partial, C77_ignore, C77_value, C77_violated_default, C78_cylinder_count, C78_noise, C79_off, C80_violated_empty, C80_violated_step, C81_violated_length, C84_violated_empty_name, C90_appearances, C90_sphere, C90_state_partial, C90_violated_restore, C94_violated_exception
* `propext` (24): C05_violated_index_first, C05_violated_torn_index, C06_linearizable, C20_violated_unregistered, C26_violated_same_id, C31_numeric_total, C35_violated_twice, C36_violated_open_way, C43_violated_back, C47_violated_short, C49_violated_raw, C51_violated_elevation, C56_violated_empty, C58_violated_direction, C58_violated_height, C58_violated_sign, C59_reread_keeps_positions, C61_violated_same_id, C66_line_partial, C66_violated_empty, C73_paints_unique, C73_texture, C77_violated_order, C92_all
