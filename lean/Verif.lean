import Verif.Props.Kepler
import Verif.Props.KeplerAccuracy
import Verif.Props.OrbitAccuracy
import Verif.Props.Central
import Verif.Props.Orbit
import Verif.Props.Stack
import Verif.Props.System
import Verif.Props.Transit
import Verif.Props.TTV
import Verif.Props.LimbDark
import Verif.Props.LightCurve
import Verif.Props.Units
import Verif.Props.UnitInvariance
import Verif.Props.Harmonics
import Verif.Props.Polynomials
import Verif.Props.Elements
import Verif.Props.PolyBasis
import Verif.Props.LimbBasis
import Verif.Props.Green
import Verif.Props.SphHarm
import Verif.Props.RotationZ
import Verif.Props.SkyProjection
import Verif.Props.RealComplex
import Verif.Props.MapRotation
import Verif.Props.QIntegral
import Verif.Props.DiscIntegral
import Verif.Props.Occultation
import Verif.Props.GreenBasis
import Verif.Props.SurfaceLight
import Verif.Props.SurfaceSystem
import Verif.Props.Intensity
import Verif.Props.Doppler
import Verif.Props.MpCache
import Verif.Props.MpBasis
import Verif.Props.MpOccultation
import Verif.Props.MpFlux
import Verif.Props.Spot
import Verif.Props.LimbMap
import Verif.Props.Wigner
import Verif.Props.YlmMul
import Verif.Props.Graticule
import Verif.Model.FastProject
import Verif.Props.FastProject
import Verif.Model.MpRotation
import Verif.Proofs.MpRotation
import Verif.Props.MpRotation
import Verif.Props.MpConverge
import Verif.Model.LegacyRotation
import Verif.Proofs.LegacyWigner
import Verif.Proofs.LegacyRotation
import Verif.Props.LegacyRotation
import Verif.Model.ProductMatrix
import Verif.Props.ProductMatrix
import Verif.Spec.Quadrature
import Verif.Proofs.Gauss
import Verif.Proofs.LimbConverge
import Verif.Props.LimbConverge
import Verif.Proofs.ChebyInterp
import Verif.Props.SurfaceConverge
import Verif.Spec.Transit
import Verif.Proofs.TransitFlux
import Verif.Props.TransitAccuracy
import Verif.Proofs.EdgeGuard
import Verif.Props.DopplerConverge
import Verif.Props.SystemConverge
import Verif.Props.SystemVelocity
import Verif.Props.LimbDarkGrad
import Verif.Props.LimbDarkDeriv
import Verif.Props.TransitGrad
import Verif.Props.SolutionGrad
import Verif.Props.SurfaceGrad
import Verif.Props.OrbitGrad
import Verif.Props.KeplerGrad
import Verif.Props.KeplerJvp
import Verif.Props.KeplerFloat
import Verif.Props.LightCurveAccuracy
import Verif.Props.StackAxes
import Verif.Props.LimbDarkFloat
import Verif.Spec.EulerGrad
import Verif.Model.InclGrad
import Verif.Proofs.InclGrad
import Verif.Proofs.EulerGrad
import Verif.Props.InclGrad
import Verif.Model.SystemGrad
import Verif.Props.SystemGrad
import Verif.Model.DopplerGrad
import Verif.Props.DopplerGrad
import Verif.Model.Transforms
import Verif.Props.Transforms
import Verif.Model.TTVGrad
import Verif.Props.TTVGrad
import Verif.Model.TransformGrad
import Verif.Props.TransformGrad
import Verif.Spec.RotvecGrad
import Verif.Model.RenderGrad
import Verif.Proofs.RenderGrad
import Verif.Props.RenderGrad
import Verif.Proofs.LinearLight
import Verif.Props.LinearLight
import Verif.Model.OrbitFloat
import Verif.Proofs.OrbitFloat
import Verif.Props.OrbitFloat
import Verif.Proofs.LimbRate
import Verif.Props.LimbRate
import Verif.Proofs.OrbitGradAccuracy
import Verif.Props.OrbitGradAccuracy
import Verif.Proofs.SurfaceRate
import Verif.Proofs.SurfaceBounded
import Verif.Props.SurfaceRate
import Verif.Proofs.DopplerBounded
import Verif.Props.DopplerRate
import Verif.Props.StackOutAxes
import Verif.Model.KeplerJvpFloat
import Verif.Props.KeplerJvpFloat
import Verif.Model.QuadraticFloat
import Verif.Props.QuadraticFloat
import Verif.Model.VelocityFloat
import Verif.Props.VelocityFloat
import Verif.Model.QuadraticTransitFloat
import Verif.Props.QuadraticTransitFloat
import Verif.Model.ExposureFloat
import Verif.Props.ExposureFloat
