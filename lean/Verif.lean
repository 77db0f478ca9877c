import Verif.Lemmas.Accepted
import Verif.Lemmas.Api
import Verif.Lemmas.ApiFail
import Verif.Lemmas.Ball
import Verif.Lemmas.Base64
import Verif.Lemmas.Body
import Verif.Lemmas.Check
import Verif.Lemmas.Checker
import Verif.Lemmas.Clip
import Verif.Lemmas.Collect
import Verif.Lemmas.Convert
import Verif.Lemmas.Convex
import Verif.Lemmas.Cover
import Verif.Lemmas.Creation
import Verif.Lemmas.Define
import Verif.Lemmas.DefineIff
import Verif.Lemmas.Deliver
import Verif.Lemmas.Derived
import Verif.Lemmas.Download
import Verif.Lemmas.Dtype
import Verif.Lemmas.Errors
import Verif.Lemmas.Execute
import Verif.Lemmas.Fill
import Verif.Lemmas.Foreign
import Verif.Lemmas.Form
import Verif.Lemmas.Frames
import Verif.Lemmas.FrontFace
import Verif.Lemmas.Glm
import Verif.Lemmas.GlmNear
import Verif.Lemmas.Handle
import Verif.Lemmas.Json
import Verif.Lemmas.JsonDoc
import Verif.Lemmas.JsonPrefix
import Verif.Lemmas.JsonText
import Verif.Lemmas.Keys
import Verif.Lemmas.Listing
import Verif.Lemmas.Lockstep
import Verif.Lemmas.Matrices
import Verif.Lemmas.Mkdocs
import Verif.Lemmas.NearBy
import Verif.Lemmas.Number
import Verif.Lemmas.OrthoFace
import Verif.Lemmas.Outward
import Verif.Lemmas.Print
import Verif.Lemmas.Pushed
import Verif.Lemmas.Py
import Verif.Lemmas.Queues
import Verif.Lemmas.Ragged
import Verif.Lemmas.Raster
import Verif.Lemmas.Recorded
import Verif.Lemmas.Recording
import Verif.Lemmas.Redraw
import Verif.Lemmas.Registry
import Verif.Lemmas.Regress
import Verif.Lemmas.Replay
import Verif.Lemmas.Replayable
import Verif.Lemmas.Repr
import Verif.Lemmas.Rounded
import Verif.Lemmas.RoundedDepth
import Verif.Lemmas.RoundedGlm
import Verif.Lemmas.RoundedMeasure
import Verif.Lemmas.RoundedPlace
import Verif.Lemmas.SaveAny
import Verif.Lemmas.SavedSent
import Verif.Lemmas.Send
import Verif.Lemmas.Session
import Verif.Lemmas.Shapes
import Verif.Lemmas.Shown
import Verif.Lemmas.Simulation
import Verif.Lemmas.Svg
import Verif.Lemmas.SvgArc
import Verif.Lemmas.SvgCut
import Verif.Lemmas.SvgText
import Verif.Lemmas.Swizzle
import Verif.Lemmas.Threads
import Verif.Lemmas.Times
import Verif.Lemmas.Trackball
import Verif.Lemmas.Tracked
import Verif.Lemmas.Transfer
import Verif.Lemmas.Transform
import Verif.Lemmas.TransformCopy
import Verif.Lemmas.Values
import Verif.Lemmas.Viewport
import Verif.Lemmas.Visual
import Verif.Lemmas.Written
import Verif.Model.Api
import Verif.Model.Base64
import Verif.Model.Checker
import Verif.Model.Clip
import Verif.Model.Cloud
import Verif.Model.Convert
import Verif.Model.Cover
import Verif.Model.Derived
import Verif.Model.Download
import Verif.Model.Dtype
import Verif.Model.Facing
import Verif.Model.Fill
import Verif.Model.Fixed
import Verif.Model.Foreign
import Verif.Model.Frames
import Verif.Model.FrontFace
import Verif.Model.Given
import Verif.Model.Glm
import Verif.Model.Hook
import Verif.Model.Image
import Verif.Model.Interactive
import Verif.Model.Json
import Verif.Model.JsonText
import Verif.Model.Keys
import Verif.Model.Launcher
import Verif.Model.Listing
import Verif.Model.Markers
import Verif.Model.Matrices
import Verif.Model.Mesh
import Verif.Model.Print
import Verif.Model.Py
import Verif.Model.Ragged
import Verif.Model.Raster
import Verif.Model.Redraw
import Verif.Model.Regress
import Verif.Model.Repr
import Verif.Model.Room
import Verif.Model.Rounded
import Verif.Model.RoundedBall
import Verif.Model.RoundedDepth
import Verif.Model.RoundedGlm
import Verif.Model.RoundedMeasure
import Verif.Model.RoundedPlace
import Verif.Model.Session
import Verif.Model.Shapes
import Verif.Model.Svg
import Verif.Model.SvgArc
import Verif.Model.SvgText
import Verif.Model.Swizzle
import Verif.Model.Threads
import Verif.Model.Times
import Verif.Model.Trackball
import Verif.Model.Tracked
import Verif.Model.TrackedLegacy
import Verif.Model.Transform
import Verif.Model.Value
import Verif.Model.Values
import Verif.Model.Vectors
import Verif.Model.Viewport
import Verif.Model.Visual
import Verif.Props.Api
import Verif.Props.ApiBackend
import Verif.Props.ApiDraw
import Verif.Props.Ball
import Verif.Props.Base64
import Verif.Props.Broadcast
import Verif.Props.Checker
import Verif.Props.Clip
import Verif.Props.Cloud
import Verif.Props.Convert
import Verif.Props.Convex
import Verif.Props.Cover
import Verif.Props.Define
import Verif.Props.DefineIff
import Verif.Props.Deliver
import Verif.Props.DeliverMore
import Verif.Props.Derived
import Verif.Props.DerivedMark
import Verif.Props.Download
import Verif.Props.DownloadMore
import Verif.Props.Dtype
import Verif.Props.Errors
import Verif.Props.Exact
import Verif.Props.ExactBall
import Verif.Props.ExactColour
import Verif.Props.ExactMore
import Verif.Props.Facing
import Verif.Props.Fill
import Verif.Props.Fixed
import Verif.Props.Foreign
import Verif.Props.Frames
import Verif.Props.FrontFace
import Verif.Props.Given
import Verif.Props.Glm
import Verif.Props.GlmNear
import Verif.Props.Handle
import Verif.Props.Hook
import Verif.Props.Image
import Verif.Props.Interactive
import Verif.Props.Json
import Verif.Props.JsonText
import Verif.Props.Keys
import Verif.Props.Launcher
import Verif.Props.Listing
import Verif.Props.Lockstep
import Verif.Props.Markers
import Verif.Props.Matrices
import Verif.Props.Mesh
import Verif.Props.Mkdocs
import Verif.Props.Number
import Verif.Props.OrthoFace
import Verif.Props.Outward
import Verif.Props.Print
import Verif.Props.Queues
import Verif.Props.Ragged
import Verif.Props.RaggedList
import Verif.Props.Raster
import Verif.Props.Recording
import Verif.Props.Redraw
import Verif.Props.Registry
import Verif.Props.Regress
import Verif.Props.Replay
import Verif.Props.Repr
import Verif.Props.Room
import Verif.Props.Rounded
import Verif.Props.RoundedBall
import Verif.Props.RoundedDepth
import Verif.Props.RoundedGlm
import Verif.Props.RoundedMeasure
import Verif.Props.RoundedPlace
import Verif.Props.SaveAny
import Verif.Props.SaveOutcome
import Verif.Props.Scene
import Verif.Props.Shapes
import Verif.Props.Shown
import Verif.Props.Shows
import Verif.Props.Svg
import Verif.Props.SvgArc
import Verif.Props.SvgCut
import Verif.Props.SvgText
import Verif.Props.Swizzle
import Verif.Props.Threads
import Verif.Props.Times
import Verif.Props.Trackball
import Verif.Props.Tracked
import Verif.Props.TrackedExact
import Verif.Props.TrackedLegacy
import Verif.Props.Transform
import Verif.Props.TransformCopy
import Verif.Props.Values
import Verif.Props.Vectors
import Verif.Props.Viewport
import Verif.Props.Visual
import Verif.Spec.Api
import Verif.Spec.Broadcast
import Verif.Spec.Checker
import Verif.Spec.Clip
import Verif.Spec.Cloud
import Verif.Spec.Convert
import Verif.Spec.Convex
import Verif.Spec.Cover
import Verif.Spec.Define
import Verif.Spec.Deliver
import Verif.Spec.Derived
import Verif.Spec.Download
import Verif.Spec.Errors
import Verif.Spec.Exact
import Verif.Spec.ExactColour
import Verif.Spec.Facing
import Verif.Spec.Fill
import Verif.Spec.Fixed
import Verif.Spec.Foreign
import Verif.Spec.Frames
import Verif.Spec.FrontFace
import Verif.Spec.Given
import Verif.Spec.Glm
import Verif.Spec.Handle
import Verif.Spec.Hook
import Verif.Spec.Image
import Verif.Spec.Interactive
import Verif.Spec.Json
import Verif.Spec.JsonText
import Verif.Spec.Keys
import Verif.Spec.Listing
import Verif.Spec.Lockstep
import Verif.Spec.Matrices
import Verif.Spec.Mesh
import Verif.Spec.Number
import Verif.Spec.Outward
import Verif.Spec.Print
import Verif.Spec.Ragged
import Verif.Spec.RaggedList
import Verif.Spec.Raster
import Verif.Spec.Redraw
import Verif.Spec.Regress
import Verif.Spec.Repr
import Verif.Spec.Room
import Verif.Spec.Rounded
import Verif.Spec.RoundedBall
import Verif.Spec.RoundedDepth
import Verif.Spec.RoundedGlm
import Verif.Spec.RoundedMeasure
import Verif.Spec.RoundedPlace
import Verif.Spec.SaveAny
import Verif.Spec.SaveOutcome
import Verif.Spec.Scene
import Verif.Spec.Session
import Verif.Spec.Shapes
import Verif.Spec.Shown
import Verif.Spec.Shows
import Verif.Spec.Svg
import Verif.Spec.SvgArc
import Verif.Spec.SvgText
import Verif.Spec.Swizzle
import Verif.Spec.Threads
import Verif.Spec.Times
import Verif.Spec.Tracked
import Verif.Spec.Transfer
import Verif.Spec.Transform
import Verif.Spec.TransformCopy
import Verif.Spec.Values
import Verif.Spec.Vectors
import Verif.Spec.Visual
import Verif.Tests.Glm
import Verif.Tests.Io
import Verif.Tests.Transform
