import Verif.Spline.Props1
import Verif.Spline.Props2
import Verif.Spline.Props3
import Verif.Spline.Smooth
import Verif.Spline.Integral
import Verif.Spline.Scale
import Verif.Spline.Combine
import Verif.Spline.Curry
import Verif.Spline.Arith
import Verif.Spline.ArithProps
import Verif.Geometry.Props
import Verif.Geometry.Props2
import Verif.Spline.Expr
import Verif.Spline.Affine
import Verif.Collision.Props
import Verif.Collision.Props2
import Verif.Spline.Bernstein
import Verif.Vehicles.Holonomic
import Verif.Vehicles.Integrate
import Verif.Vehicles.Runs
import Verif.Vehicles.Dubins
import Verif.Vehicles.Bicycle
import Verif.Vehicles.Quadrotor
import Verif.Vehicles.Terminal
import Verif.Vehicles.Trailer
import Verif.Vehicles.Quadrotor3D
import Verif.Vehicles.QuadrotorSimple
import Verif.Planner.Props
import Verif.Planner.Snap
import Verif.Planner.Occupied
import Verif.Fleet.Fleet
import Verif.ADMM.ZUpdate
import Verif.ADMM.FixedPoint
import Verif.ADMM.Accel
import Verif.ADMM.Comm
import Verif.ADMM.Iter
import Verif.Timing.Signals
import Verif.Timing.Simulator
import Verif.Timing.KnotClock
import Verif.Environment.Obstacle
import Verif.Environment.Bounce
import Verif.Environment.Count
import Verif.OptiLayer.Constraints
import Verif.OptiLayer.Parameters
import Verif.Problems.Connect
import Verif.Frames.Scheduler
import Verif.Frames.Reach
import Verif.GCode.Rooms
import Verif.GCode.Window
import Verif.Gui.Screen
import Verif.Gui.Svg
import Verif.GCode.Words
import Verif.Export.Layout
import Verif.Export.Bounds
import Verif.Export.Vehicle
import Verif.Export.Predict
import Verif.Export.Loop
import Verif.Export.Shared
import Verif.Export.Files
import Verif.Spline.Shift
import Verif.Spline.Piece
import Verif.Spline.Extrapolate
import Verif.Spline.ShiftOver
import Verif.Spline.ShiftVeh
import Verif.Spline.Concat
import Verif.Vehicles.Start
import Verif.Vehicles.Goal
import Verif.Timing.Deploy
import Verif.Vehicles.Objective
import Verif.Spline.Warm
import Verif.Timing.Movie
import Verif.GCode.Machining
import Verif.Vehicles.Tool
import Verif.Vehicles.ToolRoom
import Verif.Spline.Total
import Verif.Spline.Regular
import Verif.Spline.Solvable
import Verif.Spline.ConcatSolve
import Verif.ADMM.DualDec
import Verif.ADMM.Shifted
import Verif.Problems.Builds
import Verif.Planner.Shortest
import Verif.Environment.Rotating
import Verif.Export.VehicleKnots
import Verif.Environment.ObstacleSim
import Verif.GCode.MotionTime
import Verif.Frames.Guess
import Verif.Environment.Overlap
import Verif.OptiLayer.Assemble
import Verif.Problems.InitGuess
import Verif.Problems.FramesStep
import Verif.Geometry.Shapes
import Verif.Timing.Arrival
import Verif.GCode.Extended
import Verif.GCode.BangBang
import Verif.GCode.Carry
import Verif.GCode.RingGuess
import Verif.Spline.Unimodal
import Verif.Spline.Windows
import Verif.Spline.Usable
import Verif.Problems.Mission
import Verif.OptiLayer.Store
import Verif.Problems.Predict
import Verif.Problems.MissionFixed
import Verif.Problems.MissionFleet
import Verif.Vehicles.Bodies
import Verif.Problems.MissionDubins
import Verif.Fleet.Centre
import Verif.Problems.Overrule
import Verif.Problems.Simulated
import Verif.Problems.Default
import Verif.Spline.Nurbs
import Verif.Spline.Tensor
import Verif.Spline.Cache
import Verif.ADMM.LinEq
import Verif.OptiLayer.Substitute
import Verif.Problems.Options
import Verif.Problems.MissionFrames
import Verif.Problems.MissionTool
import Verif.Problems.Drive
import Verif.Problems.MissionSpace
import Verif.Problems.Slow
import Verif.Problems.MissionQuad
import Verif.Frames.Switch
import Verif.Problems.Solved
import Verif.Spline.Combined
import Verif.Frames.GuessFrames
import Verif.Timing.Once
import Verif.Problems.MissionSimple
import Verif.Problems.TurnGuess
import Verif.ADMM.Converge
import Verif.ADMM.DualConverge
import Verif.ADMM.Ama
import Verif.Problems.Seen
import Verif.ADMM.AccConverge
import Verif.ADMM.AccStart
import Verif.Gui.SvgPath
import Verif.ADMM.SharedDict
import Verif.Export.Template
import Verif.Export.Includes
import Verif.Export.Guards
import Verif.Export.Obstacles
import Verif.Export.Places
import Verif.Export.FleetBuild
import Verif.ADMM.KnotShift
import Verif.ADMM.ResidualPlot
import Verif.Gui.SvgSize
import Verif.Problems.Given
import Verif.Export.Substitutes
