import Verif.Props.CsgArray
import Verif.Props.Primitives
import Verif.Props.Optics
import Verif.Props.Utils
import Verif.Props.World
import Verif.Props.CsgHeap
import Verif.Props.Solid
import Verif.Props.Normals
import Verif.Props.Tracer
import Verif.Props.Tracer2
import Verif.Props.TraceOptics
import Verif.Props.RaySet
import Verif.Props.Sources
import Verif.Props.StaticLamp
import Verif.Props.Boundary
import Verif.Props.Components
import Verif.Props.Components2
import Verif.Props.Components3
import Verif.Props.Render
import Verif.Props.Render2
import Verif.Props.Render3
import Verif.Props.Render4
import Verif.Props.Render5
import Verif.Props.UnitNormals
import Verif.Props.Moved
import Verif.Props.Flip
import Verif.Props.Arrays
import Verif.Props.Show
import Verif.Props.Getters
import Verif.Props.Bench
import Verif.Props.Focus
import Verif.Proofs.Paraxial
import Verif.Proofs.NearRay
import Verif.Proofs.LensPath
import Verif.Proofs.LensRay
import Verif.Proofs.Screen
import Verif.Props.Ends
import Verif.Props.Room
import Verif.Props.Paraxial
import Verif.Proofs.Skew
import Verif.Props.Skew
import Verif.Props.Sphere
import Verif.Props.Prism
import Verif.Props.Bands
import Verif.Props.Reach
import Verif.Model.Bare
import Verif.Props.Bare
import Verif.Model.Groups
import Verif.Props.Groups
import Verif.Spec.Retrace
import Verif.Proofs.Reverse
import Verif.Proofs.Reverse2
import Verif.Props.Reverse
import Verif.Spec.View
import Verif.Proofs.View
import Verif.Props.View
import Verif.Spec.Fermat
import Verif.Proofs.Fermat
import Verif.Props.Fermat
import Verif.Props.DefaultGlass
import Verif.Model.Quaternion
import Verif.Props.Quaternion
import Verif.Spec.MirrorBox
import Verif.Proofs.MirrorHall
import Verif.Props.MirrorBox
import Verif.Model.Defaults
import Verif.Props.Defaults
import Verif.Props.Spheres
import Verif.Props.LightGuide
import Verif.Props.Colour
import Verif.Props.Rounding
import Verif.Proofs.RoundingSphere
import Verif.Props.RoundingSphere
import Verif.Model.Bundles
import Verif.Proofs.Bundles
import Verif.Proofs.Bundles2
import Verif.Proofs.Bundles3
import Verif.Proofs.Bundles4
import Verif.Props.Bundles
import Verif.Model.Special
import Verif.Proofs.Special
import Verif.Proofs.Special2
import Verif.Proofs.Special3
import Verif.Props.Special
import Verif.Props.Dispersion
import Verif.Props.RoundingMoved
import Verif.Props.RoundingPath
import Verif.Props.RoundingCube
import Verif.Props.Aplanatic
import Verif.Props.Confocal
import Verif.Props.Spheroid
import Verif.Props.Chromatic
import Verif.Props.Gauss
import Verif.Props.Telescope
import Verif.Props.Folded
import Verif.Props.FoldedImages
import Verif.Props.Sliding
import Verif.Tests.Primitives
import Verif.Tests.Operations
import Verif.Tests.Optics
