import Verif.Base.Dict
import Verif.Base.Str
import Verif.SimDef.KeysModel
import Verif.SimDef.KeysProps
import Verif.SimDef.ParserModel
import Verif.SimDef.ParserText
import Verif.SimDef.ParserMachine
import Verif.SimDef.ParserProps
import Verif.SimDef.WriterProps
import Verif.SimDef.IncludeProps
import Verif.SimDef.DerivedProps
import Verif.SimDef.ShlexProps
import Verif.SimDef.StoreModel
import Verif.SimDef.StoreProps
import Verif.SimDef.ResampleModel
import Verif.SimDef.ResampleProps
import Verif.Log.LogModel
import Verif.Log.LogProps
import Verif.Log.ExpandModel
import Verif.Log.ExpandProps
import Verif.Motion.VecModel
import Verif.Motion.VectorProps
import Verif.Motion.VectorText
import Verif.Motion.QuatModel
import Verif.Motion.QuatProps
import Verif.Motion.SlerpProps
import Verif.Motion.StateModel
import Verif.Motion.StateProps
import Verif.Motion.ForceModel
import Verif.Motion.ForceProps
import Verif.Motion.StateListModel
import Verif.Motion.StateListProps
import Verif.Motion.IntegModel
import Verif.Motion.IntegProps
import Verif.Motion.IntegMethods
import Verif.Motion.AdaptProps
import Verif.GNC.GncModel
import Verif.GNC.GncProps
import Verif.Motion.InterpModel
import Verif.Motion.InterpProps
import Verif.Motion.CacheModel
import Verif.Motion.CacheProps
import Verif.ENV.RailModel
import Verif.ENV.RailProps
import Verif.ENV.AtmModel
import Verif.ENV.AtmProps
import Verif.ENV.EarthModel
import Verif.ENV.EarthProps
import Verif.ENV.WgsProps
import Verif.ENV.TurbModel
import Verif.ENV.TurbProps
import Verif.ENV.WindModel
import Verif.ENV.WindProps
import Verif.ENV.EnvModel
import Verif.ENV.EnvProps
import Verif.Rocket.EventModel
import Verif.Rocket.EventProps
import Verif.Rocket.MotorModel
import Verif.Rocket.MotorProps
import Verif.Rocket.CompositeModel
import Verif.Rocket.CompositeProps
import Verif.Rocket.StagingModel
import Verif.Rocket.StagingProps
import Verif.Rocket.RecoveryModel
import Verif.Rocket.RecoveryProps
import Verif.Rocket.AeroModel
import Verif.Rocket.DampProps
import Verif.Rocket.CoeffProps
import Verif.Rocket.AeroForceProps
import Verif.Rocket.FinModel
import Verif.Rocket.FinGeomProps
import Verif.Rocket.FinForceProps
import Verif.Rocket.FinPowerProps
import Verif.Rocket.GeomModel
import Verif.Rocket.GeomProps
import Verif.Rocket.BodyProps
import Verif.Rocket.ExactProps
import Verif.Run.RunModel
import Verif.Run.RunProps
import Verif.Run.FolderModel
import Verif.Run.FolderProps
import Verif.Run.McModel
import Verif.Run.McProps
import Verif.Run.BatchModel
import Verif.Run.BatchProps
import Verif.Run.FlightModel
import Verif.Run.FlightProps
import Verif.Run.HilModel
import Verif.Run.HilProps
import Verif.Run.ConvModel
import Verif.Run.ConvProps
import Verif.Run.OptModel
import Verif.Run.OptProps
import Verif.Rocket.PartModel
import Verif.Rocket.PartProps
import Verif.ENV.RoseModel
import Verif.ENV.RoseProps
import Verif.ENV.FactoryModel
import Verif.ENV.FactoryProps
import Verif.GNC.ControlModel
import Verif.GNC.ControlProps
import Verif.Rocket.SplitModel
import Verif.Rocket.SplitProps
import Verif.Rocket.HullModel
import Verif.Rocket.HullProps
import Verif.Rocket.SetupModel
import Verif.Rocket.SetupProps
import Verif.Log.StateLogModel
import Verif.Log.StateLogProps
import Verif.Log.PostModel
import Verif.Log.PostProps
import Verif.Motion.FlowProps
import Verif.Log.PlotModel
import Verif.Log.PlotProps
import Verif.SimDef.PathModel
import Verif.SimDef.PathProps
import Verif.Run.MainModel
import Verif.Run.MainProps
import Verif.Motion.StepperModel
import Verif.Motion.StepperProps
import Verif.Run.CaseModel
import Verif.Run.CaseProps
import Verif.Log.ReplayModel
import Verif.Log.ReplayProps
import Verif.Log.ReplayDrawProps
import Verif.Log.ConsoleModel
import Verif.Log.ConsoleProps
import Verif.Log.ConsoleTextProps
import Verif.Log.ConsoleRowsProps
import Verif.Rocket.PartAeroModel
import Verif.Rocket.PartAeroProps
import Verif.Rocket.PartHullProps
import Verif.Rocket.FinDragProps
import Verif.Motion.EqualModel
import Verif.Motion.EqualProps
import Verif.Run.OptSetupModel
import Verif.Run.OptSetupProps
import Verif.Motion.StateAlgProps
import Verif.Run.ConvRunModel
import Verif.Run.ConvRunProps
import Verif.Run.ConvCmpProps
import Verif.Run.FigureModel
import Verif.Run.FigureProps
import Verif.Run.FigLogProps
import Verif.Run.FigSaveProps
import Verif.Run.RecordModel
import Verif.Run.RecordProps
import Verif.Run.RerunProps
import Verif.Run.RerunCaseProps
import Verif.Run.RerunBatchProps
import Verif.Log.ForceLogModel
import Verif.Log.ForceLogProps
import Verif.Log.ForceLogRowProps
import Verif.Log.ForceLogHistProps
import Verif.Log.ForceLogSimProps
import Verif.Log.ForceLogRunProps
import Verif.Log.ForceLogClaims
import Verif.Log.ForceLogSetupProps
import Verif.Log.ForceLogSweepProps
import Verif.SimDef.LayoutProps
import Verif.Motion.BodyStepModel
import Verif.Motion.BodyStepProps
import Verif.Motion.BodySpinProps
import Verif.Motion.BodyFlightProps
import Verif.Motion.BodyAdaptProps
import Verif.Motion.SpinAttemptProps
import Verif.Motion.StateVarProps
import Verif.Rocket.SampleModel
import Verif.Motion.StateVarClaims
import Verif.Motion.LimitProps
import Verif.Motion.LimitJetProps
import Verif.Motion.LimitOrderProps
import Verif.Motion.LimitExactProps
import Verif.Motion.LimitStageProps
import Verif.Motion.LimitMotionProps
import Verif.Motion.LimitFirstProps
import Verif.Motion.LimitCodeProps
import Verif.Motion.LimitClaims
import Verif.Motion.TurnLimitProps
import Verif.Motion.TurnOrderProps
import Verif.Motion.TurnCalcProps
import Verif.Motion.TurnBodyProps
import Verif.Motion.TurnCourseProps
import Verif.Motion.TurnSmoothProps
import Verif.Motion.TurnRigidProps
import Verif.Motion.TurnLossProps
import Verif.Motion.TurnTumbleProps
import Verif.Rocket.AscentModel
import Verif.Rocket.AscentForceProps
import Verif.Rocket.AscentProps
import Verif.Rocket.AscentLaunchProps
import Verif.Rocket.AscentSample
import Verif.Motion.HomProps
import Verif.Motion.TurnedBodyProps
import Verif.Rocket.TurnedProps
import Verif.Rocket.TurnedPlaceProps
import Verif.Rocket.LaunchModel
import Verif.Rocket.TurnedLaunchProps
import Verif.Rocket.TurnedSample
import Verif.Rocket.StabilityFinProps
import Verif.Rocket.StabilityProps
import Verif.Rocket.StabilitySample
import Verif.Rocket.BuildModel
import Verif.Rocket.BuildProps
import Verif.Rocket.BuildCraftProps
import Verif.Rocket.BuildFlightProps
import Verif.Rocket.BuildExample
import Verif.Rocket.MissionModel
import Verif.Rocket.MissionBuildProps
import Verif.Rocket.MissionProps
import Verif.Rocket.MissionLandProps
import Verif.Rocket.MissionSample
import Verif.Rocket.MissionDropSample
import Verif.Rocket.SeparationProps
import Verif.Rocket.SeparationDropProps
import Verif.Rocket.SeparationSample
import Verif.Motion.SettleProps
import Verif.Rocket.DescentFieldProps
import Verif.Rocket.DescentProps
import Verif.Rocket.DescentSample
import Verif.Rocket.MotorFileModel
import Verif.Rocket.MotorFileProps
import Verif.Rocket.MotorWriteProps
import Verif.Motion.CachedStepProps
import Verif.Motion.AdaptFlightModel
import Verif.Motion.AdaptTabProps
import Verif.Motion.AdaptLimitProps
import Verif.Motion.AdaptLimitClaims
import Verif.Rocket.DrawModel
import Verif.Rocket.DrawProps
import Verif.Rocket.DrawClaims
import Verif.Motion.LooseStepProps
import Verif.Motion.LooseOrderProps
import Verif.Motion.TurnLogProps
import Verif.Motion.BodyFlyModel
import Verif.Motion.BodyFlyProps
import Verif.Motion.BodySlowProps
import Verif.Motion.BodyFlyClaims
import Verif.Motion.BodyFlyRigidClaims
import Verif.Log.ShowModel
import Verif.Log.ShowProps
import Verif.Log.ShowBoxProps
import Verif.Rocket.CoastForceProps
import Verif.Rocket.CoastProps
import Verif.Rocket.CoastFlyProps
import Verif.Rocket.CoastSample
import Verif.Run.HilSessionModel
import Verif.Run.HilSessionProps
import Verif.Run.HilFlightProps
import Verif.Rocket.CantProps
import Verif.Rocket.CantSpinProps
import Verif.Rocket.CarryProps
import Verif.Rocket.CarryMissionProps
import Verif.Rocket.CarrySample
import Verif.Rocket.KeptProps
import Verif.Rocket.DrawBuildProps
import Verif.Rocket.SeparationLitProps
import Verif.SimDef.UsageModel
import Verif.SimDef.UsageProps
import Verif.Rocket.TurnedMissionProps
import Verif.Rocket.TurnedMissionSample
import Verif.Run.ConvPlotModel
import Verif.Run.ConvPlotProps
import Verif.Rocket.AscentRhsProps
import Verif.Rocket.BuildWidthProps
