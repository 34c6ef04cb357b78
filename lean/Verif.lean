import Verif.Props.Array2D
import Verif.Props.Well
import Verif.Props.Tiles
import Verif.Props.Sampler
import Verif.Props.KdNode
import Verif.Props.Morton
import Verif.Props.AABB
import Verif.Props.EF
import Verif.Props.KdTree
import Verif.Props.BvhMesh
import Verif.Props.Film
import Verif.Props.Geom
import Verif.Props.Shapes
import Verif.Props.Asset
import Verif.Props.Bsdf
import Verif.Props.Integrator
import Verif.Props.Pixel
import Verif.Props.Bmp
import Verif.Props.Tga
import Verif.Props.Ppm
import Verif.Props.Texture
import Verif.Props.File
import Verif.Props.Config
import Verif.Props.Library
import Verif.Props.Obj
import Verif.Props.ObjFace
import Verif.Props.Filters
import Verif.Props.Sampling
import Verif.Props.Rough
import Verif.Props.Sah
import Verif.Props.HalfVec
import Verif.Props.Anisotropic
import Verif.Props.Metals
import Verif.Props.OrenNayar
import Verif.Props.Frame
import Verif.Props.Camera
import Verif.Props.Sphere
import Verif.Props.Light
import Verif.Props.Shadow
import Verif.Props.Color
import Verif.Props.Spectrum
import Verif.Props.SceneGrammar
import Verif.Props.SceneScanner
import Verif.Props.SceneReadback
import Verif.Props.SceneDriver
import Verif.Props.SceneText
import Verif.Props.SceneChain
import Verif.Props.SceneTextures
import Verif.Props.SceneMaterials
import Verif.Props.SceneMeshes
import Verif.Props.SceneFirstError
import Verif.Props.SceneReport
import Verif.Props.Messages
import Verif.Props.ImageIo
import Verif.Props.Queue
import Verif.Props.Memory
import Verif.Props.MaskHit
import Verif.Props.FileSystem
import Verif.Props.WellUniform
import Verif.Props.Single
import Verif.Props.Direct
import Verif.Props.FloatTree
import Verif.Props.FloatBvh
import Verif.Props.Normalize
import Verif.Props.FloatMaterial
import Verif.Props.Run
import Verif.Props.FloatTriangle
import Verif.Props.BigSphere
import Verif.Props.FloatSphere
import Verif.Props.FloatMicrofacet
import Verif.Props.FloatMicroError
import Verif.Props.FloatFilm
import Verif.Props.FloatFilter
import Verif.Props.Alias
import Verif.Props.Compare
import Verif.Props.FloatPlace
import Verif.Props.FloatInverse
import Verif.Props.FloatPlaced
import Verif.Props.FloatRough
import Verif.Props.FloatRoughError
import Verif.Model.FloatFrame
import Verif.Props.FloatFrame
import Verif.Model.FloatTexture
import Verif.Props.FloatTexture
import Verif.Props.FloatLight
import Verif.Props.FloatBox
import Verif.Props.FloatEwa
import Verif.Props.FloatAsset
import Verif.Props.FloatEwaWeight
import Verif.Props.FloatArea
import Verif.Props.FloatDirect
import Verif.Props.FloatPath
import Verif.Props.FloatChoice
import Verif.Props.FloatSampler
