import Verif.Props.C01_C04_Queues
import Verif.Props.C05_C06_C08_Arrays
import Verif.Props.C07_C09_Copies_Stencils
import Verif.Props.C100_FunctionObjects
import Verif.Props.C101_ContainerFormatters
import Verif.Props.C102_TableFormatters
import Verif.Props.C103_Terminals
import Verif.Props.C104_Terminals
import Verif.Props.C105_Descriptors
import Verif.Props.C106_StreamDevice
import Verif.Props.C106_Truth
import Verif.Props.C107_SharedFileThreads
import Verif.Props.C108_LogThreads
import Verif.Props.C109_AngleFloat
import Verif.Props.C10_C15_Converters
import Verif.Props.C110_StatisticsFloat
import Verif.Props.C111_TextFloat
import Verif.Props.C112_Hex
import Verif.Props.C112_StaticBuffers
import Verif.Props.C113_CmdLineProcess
import Verif.Props.C114_PolynomialFloat
import Verif.Props.C115_Opening
import Verif.Props.C116_SegmentFloat
import Verif.Props.C117_SigSlotWires
import Verif.Props.C118_StringStream
import Verif.Props.C119_PoseDrift
import Verif.Props.C120_CmdLineDeclare
import Verif.Props.C121_Packet
import Verif.Props.C122_DriveFloat
import Verif.Props.C123_SlotsThrow
import Verif.Props.C124_InterpolationFloat
import Verif.Props.C125_OutOfMemory
import Verif.Props.C126_SplineFloat
import Verif.Props.C127_ClockFailure
import Verif.Props.C128_CmdLineSaid
import Verif.Props.C129_HelpFrame
import Verif.Props.C130_Angles
import Verif.Props.C130_Special
import Verif.Props.C131_Nan
import Verif.Props.C132_Sign
import Verif.Props.C132_TensionReturns
import Verif.Props.C133_Range
import Verif.Props.C134_Exact
import Verif.Props.C135_Console
import Verif.Props.C136_FileBuffer
import Verif.Props.C137_Lifetimes
import Verif.Props.C138_SplineSizes
import Verif.Props.C139_SharedDisk
import Verif.Props.C140_EllipseRounding
import Verif.Props.C141_Tension
import Verif.Props.C141_TensionDouble
import Verif.Props.C142_Copies
import Verif.Props.C143_PoseFormatter
import Verif.Props.C144_Neighbours
import Verif.Props.C145_ThreadCopies
import Verif.Props.C146_MemoryCopies
import Verif.Props.C147_Duplex
import Verif.Props.C148_ExtremaFloat
import Verif.Props.C149_CubicFloat
import Verif.Props.C150_SegmentLine
import Verif.Props.C151_Singleton
import Verif.Props.C152_ThreadableRace
import Verif.Props.C153_DurationFloat
import Verif.Props.C154_JoinRace
import Verif.Props.C155_MutexRace
import Verif.Props.C156_MutexCount
import Verif.Props.C16_C22_Time
import Verif.Props.C17_C24_Remaining
import Verif.Props.C23_StringDevice
import Verif.Props.C24_Console
import Verif.Props.C25_C26_C71_Files
import Verif.Props.C27_Serial
import Verif.Props.C28_C71_Remaining
import Verif.Props.C28_Sockets
import Verif.Props.C29_C31_SigSlots
import Verif.Props.C31_Decided
import Verif.Props.C32_C33_Semaphore
import Verif.Props.C34_C73_Mutex
import Verif.Props.C35_C36_C74_Threads
import Verif.Props.C35_C43_Remaining
import Verif.Props.C37_Exceptions
import Verif.Props.C38_Flags
import Verif.Props.C39_C77_Math
import Verif.Props.C40_C41_Formatters
import Verif.Props.C42_C46_TextStreams
import Verif.Props.C47_LogStream
import Verif.Props.C47_Remaining
import Verif.Props.C48_C50_CmdLine
import Verif.Props.C48_CmdLineTexts
import Verif.Props.C51_Angle
import Verif.Props.C52_C53_Polynomial
import Verif.Props.C54_Roots
import Verif.Props.C54_RootsExtended
import Verif.Props.C55_Extrema
import Verif.Props.C56_C57_CubicSpline
import Verif.Props.C58_TensionSpline
import Verif.Props.C59_SmoothLinear
import Verif.Props.C60_C61_Segment
import Verif.Props.C62_Pose
import Verif.Props.C63_DifferentialDrive
import Verif.Props.C64_Trajectory
import Verif.Props.C65_Statistics
import Verif.Props.C66_C80_Ellipsoid
import Verif.Props.C67_Pascal
import Verif.Props.C68_Frequency
import Verif.Props.C69_Durations
import Verif.Props.C72_Errno
import Verif.Props.C78_Intersection
import Verif.Props.C81_Waypoint
import Verif.Props.C82_LinearTrajectory
import Verif.Props.C83_TensionTrajectory
import Verif.Props.C84_SharedMemory
import Verif.Props.C85_FloatConverter
import Verif.Props.C86_RealPath
import Verif.Props.C87_TimeData
import Verif.Props.C88_RandomNumbers
import Verif.Props.C89_CartesianPoint
import Verif.Props.C90_Usage
import Verif.Props.C91_Interpolation
import Verif.Props.C92_FrameConversions
import Verif.Props.C92_YawCheck
import Verif.Props.C93_Delivery
import Verif.Props.C93_Ends
import Verif.Props.C94_Barrier
import Verif.Props.C95_MutexWin
import Verif.Props.C96_ThreadWin
import Verif.Props.C97_FilesWin
import Verif.Props.C98_SerialWin
import Verif.Props.C99_TimeWin
