import Verif.Props.Grid
import Verif.Props.Mdp
import Verif.Props.MdpSetters
import Verif.Props.ActionSelection
import Verif.Props.DynamicProgramming
import Verif.Props.Algorithm
import Verif.Props.SuccessorRepresentation
import Verif.Props.Environment
import Verif.Props.EnvironmentSteps
import Verif.Props.EnvironmentRetry
import Verif.Props.ArraySharing
import Verif.Props.World
import Verif.Props.IRL
import Verif.Props.FeatureMatching
import Verif.Props.LearnerState
import Verif.Props.Eyeline
import Verif.Props.PolicyLearning
import Verif.Props.EnvIO
import Verif.Props.Plotting
import Verif.Props.MCTS
import Verif.Props.MCTSLoop
import Verif.Props.MCTSCache
import Verif.Props.MCTSObject
import Verif.Props.Optimality
import Verif.Props.Temperature
import Verif.Props.RandomWalk
import Verif.Props.NullPlanner
import Verif.Props.OneMove
import Verif.Props.Costs
import Verif.Props.RewardChanges
import Verif.Props.RewardErrors
import Verif.Props.Mirror
import Verif.Props.Indifferent
import Verif.Props.Unreachable
import Verif.Props.Monotone
import Verif.Props.Credit
import Verif.Props.IRLReport
import Verif.Props.LearnerStore
import Verif.Props.LearnerArgs
import Verif.Props.Hunting
import Verif.Props.Rounding
import Verif.Props.IRLHistory
import Verif.Props.PolicyBatches
import Verif.Props.IRLOrder
import Verif.Props.Drawing
import Verif.Props.HexDist
import Verif.Props.Chance
import Verif.Props.Reported
import Verif.Props.Entropy
import Verif.Props.RewardShift
import Verif.Props.FeatureNumbers
import Verif.Props.Loading
import Verif.Props.OtherWorlds
import Verif.Props.Turns
import Verif.Props.Exploring
import Verif.Props.Overflow
import Verif.Props.Foraging
import Verif.Props.Visits
import Verif.Props.Pursuit
import Verif.Props.ProbaFrom
import Verif.Props.SearchAgent
import Verif.Props.SearchGame
import Verif.Props.Instances
import Verif.Props.RoundedChoice
import Verif.Props.Alone
import Verif.Props.OwnSelector
import Verif.Props.Replay
import Verif.Props.Relisted
import Verif.Props.Resumed
import Verif.Props.Interests
import Verif.Props.Habits
import Verif.Props.CaresMore
import Verif.Props.MdpMore
import Verif.Props.NeverMatches
import Verif.Props.HtBounds
import Verif.Props.Consistent
import Verif.Props.Called
import Verif.Props.BestPlan
import Verif.Props.Wandering
import Verif.Props.Walled
import Verif.Props.PlanningCases
import Verif.Props.Foreseen
import Verif.Props.Shortsighted
import Verif.Props.Circles
import Verif.Props.FirstGuess
import Verif.Props.SoftHard
import Verif.Props.Slope
import Verif.Props.WholeStart
import Verif.Props.SharedSearch
import Verif.Props.Caught
import Verif.Props.BoolWalls
import Verif.Props.Turned
import Verif.Props.WholeWorld
import Verif.Props.SoftUnique
import Verif.Props.SoftStable
import Verif.Props.SoftMonotone
import Verif.Props.ForeseenGreedy
import Verif.Props.SoftAccuracy
import Verif.Props.SoftRounding
import Verif.Props.NearbyValues
import Verif.Props.NearbyGreedy
import Verif.Props.NearbyExpected
import Verif.Props.NearbyCounts
import Verif.Props.ThetaLength
import Verif.Props.NearbyRewards
import Verif.Props.OpponentSettings
import Verif.Props.OpponentSearch
import Verif.Props.Demean
import Verif.Props.RandomOpponent
