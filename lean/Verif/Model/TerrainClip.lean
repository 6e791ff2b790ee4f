import Verif.Model.Terrain

/-! # The clipper which the ways of a tile share -/
namespace Verif.Terrain

/-- TerraBuilder.cpp:85: the clipper of a tile has its rectangle as clip. -/
def tileClipper (tileRect : Path) : Clipper := ({} : Clipper).add .clip [tileRect]

/-- TerraBuilder.cpp:106-108 for one way after the other: the subjects and clips which each intersection is made of. -/
def intersections (c : Clipper) : List (List Path) → List (List Path × List Path)
  | [] => []
  | solution :: rest =>
    let d := c.add .subject solution
    (d.of .subject, d.of .clip) :: intersections d.removeSubject rest

end Verif.Terrain
