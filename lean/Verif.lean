import Verif.Adsorbate
import Verif.Algebraic
import Verif.Amorphous
import Verif.Arrays
import Verif.Batched
import Verif.BoundarySet
import Verif.Bounding
import Verif.BoundingLemmas
import Verif.Containers
import Verif.Density
import Verif.Gallery
import Verif.Generator
import Verif.GeneratorLemmas
import Verif.GeneratorSet
import Verif.Geom
import Verif.GeomLemmas
import Verif.Heap
import Verif.HeapLemmas
import Verif.HeapSteps
import Verif.Measure
import Verif.Misc
import Verif.Molecule
import Verif.Notices
import Verif.Precedence
import Verif.PrecedenceLemmas
import Verif.Prefab
import Verif.PrefabLemmas
import Verif.Props.Adsorbate
import Verif.Props.AdsorbateAway
import Verif.Props.AdsorbateFilters
import Verif.Props.AdsorbateNormal
import Verif.Props.AdsorbatePlace
import Verif.Props.Algebraic
import Verif.Props.Amorphous
import Verif.Props.AmorphousEnds
import Verif.Props.AmorphousGen
import Verif.Props.Arrays
import Verif.Props.Batched
import Verif.Props.Boundary
import Verif.Props.BoundarySet
import Verif.Props.Bounding
import Verif.Props.BoundingHull
import Verif.Props.Containers
import Verif.Props.Density
import Verif.Props.Fresh
import Verif.Props.Gallery
import Verif.Props.GalleryEdits
import Verif.Props.GalleryRuns
import Verif.Props.Generator
import Verif.Props.GeneratorSet
import Verif.Props.Heap
import Verif.Props.HeapMulti
import Verif.Props.Icosahedron
import Verif.Props.LinAlg
import Verif.Props.Measure
import Verif.Props.Misc
import Verif.Props.Molecule
import Verif.Props.MoleculeCalls
import Verif.Props.MoleculeExtra
import Verif.Props.Notices
import Verif.Props.Prefab
import Verif.Props.PrefabBasal
import Verif.Props.PrefabContents
import Verif.Props.PrefabCubic
import Verif.Props.PrefabDistance
import Verif.Props.PrefabFccAny
import Verif.Props.PrefabHexagonal
import Verif.Props.PrefabPlanes
import Verif.Props.PrefabRest
import Verif.Props.PrefabReturns
import Verif.Props.PrefabStacking
import Verif.Props.PrefabWurtzite
import Verif.Props.Rdf
import Verif.Props.RdfHist
import Verif.Props.RdfVoxels
import Verif.Props.Recipes
import Verif.Props.Roster
import Verif.Props.Rotation
import Verif.Props.Rounded
import Verif.Props.RoundedAdsorbate
import Verif.Props.RoundedAdsorbed
import Verif.Props.RoundedAlign
import Verif.Props.RoundedAmorphous
import Verif.Props.RoundedExact
import Verif.Props.RoundedFlip
import Verif.Props.RoundedLanding
import Verif.Props.RoundedMolecule
import Verif.Props.RoundedMotion
import Verif.Props.RoundedMoved
import Verif.Props.RoundedMulti
import Verif.Props.RoundedMultiMotion
import Verif.Props.RoundedScene
import Verif.Props.RoundedTurn
import Verif.Props.SameCrystal
import Verif.Props.Scene
import Verif.Props.SceneAse
import Verif.Props.SceneIndex
import Verif.Props.Seeds
import Verif.Props.Settings
import Verif.Props.Sharing
import Verif.Props.Snap
import Verif.Props.Strain
import Verif.Props.StrainMotion
import Verif.Props.Studio
import Verif.Props.StudioHistory
import Verif.Props.Surface
import Verif.Props.SurfaceMotion
import Verif.Props.SurfaceSet
import Verif.Props.Transform
import Verif.Props.TransformEffect
import Verif.Props.TransformSet
import Verif.Props.UnitCell
import Verif.Props.Viz
import Verif.Props.Volume
import Verif.Props.VolumeCalls
import Verif.Props.VolumeCylinder
import Verif.Props.VolumeErrors
import Verif.Props.VolumeExtra
import Verif.Props.VolumeFill
import Verif.Props.VolumeMolecule
import Verif.Props.World
import Verif.Props.WorldHistory
import Verif.Props.WorldMotion
import Verif.Props.WorldShift
import Verif.Props.WorldStale
import Verif.Props.Wulff
import Verif.Props.WulffCache
import Verif.Py
import Verif.RdfHist
import Verif.Recipes
import Verif.Roster
import Verif.RotAlign
import Verif.Round
import Verif.Rounded
import Verif.RoundedAdsorbate
import Verif.RoundedAlign
import Verif.RoundedAmorphous
import Verif.RoundedLemmas
import Verif.RoundedMolecule
import Verif.RoundedMotion
import Verif.RoundedMulti
import Verif.RoundedMultiMotion
import Verif.RoundedScene
import Verif.Scene
import Verif.SceneAse
import Verif.SceneLemmas
import Verif.Seeds
import Verif.Settings
import Verif.Sharing
import Verif.Snap
import Verif.Spec.Adsorbate
import Verif.Spec.Amorphous
import Verif.Spec.Bounding
import Verif.Spec.Crystal
import Verif.Spec.Geometry
import Verif.Spec.Heap
import Verif.Spec.Icosahedron
import Verif.Spec.Measure
import Verif.Spec.Miller
import Verif.Spec.Misc
import Verif.Spec.Molecule
import Verif.Spec.Precedence
import Verif.Spec.Prefab
import Verif.Spec.Settings
import Verif.Spec.Surface
import Verif.Spec.Transform
import Verif.Spec.UnitCell
import Verif.Spec.Volume
import Verif.Spec.World
import Verif.Spec.Wulff
import Verif.Studio
import Verif.Surface
import Verif.SurfaceSet
import Verif.Transform
import Verif.TransformLemmas
import Verif.TransformSet
import Verif.UnitCell
import Verif.Viz
import Verif.Volume
import Verif.VolumeCalls
import Verif.VolumeLemmas
import Verif.Voxel
import Verif.World
import Verif.Wulff
import Verif.WulffCache
