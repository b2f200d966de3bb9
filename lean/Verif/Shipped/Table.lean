import Verif.Shipped.Generate

/-!
The data types in `canadensis_data_types/src/generated.rs`, transcribed by a script that reads the file as text, in an order such that every type is after the
types of its fields. For every type there are
* its path in the file, its name in DSDL and its role;
* the definition: the extent is from `EXTENT_BYTES`, the type of each field and the padding are from the comments that the generator wrote;
* the declaration and the functions;
* the comments about sizes: the least and greatest number of bytes of the type; for the fields of a struct, whether they are always aligned, and the
least and greatest number of bits.
-/

namespace Verif.Shipped

set_option maxRecDepth 4000

/-- Which trait a type implements: `Message`, `Request` or `Response` (canadensis_codegen_rust/src/lib.rs L655-700). -/
inductive Role where
  | message
  | request
  | response
deriving DecidableEq, Repr

/-- A type of the file (canadensis_data_types/src/generated.rs). -/
structure Entry where
  path : String
  dsdl : String
  role : Role
  definition : Definition
  code : Code
  bytes : Nat × Nat
  fields : List (Bool × Nat × Nat)

/-- `uavcan::si::unit::frequency::scalar_1_0::Scalar` (canadensis_data_types/src/generated.rs L15942). -/
def t0 : Entry where
  path := "uavcan::si::unit::frequency::scalar_1_0::Scalar"
  dsdl := "uavcan.si.unit.frequency.Scalar.1.0"
  role := .message
  definition := ⟨none, false, .struct [.data "hertz" (.prim .float32) .scalar]⟩
  code :=
    { shape := .struct true [("hertz", (.one .f32))]
      extentBytes := none
      sizeBits := .sum [.lit 32]
      serialize := .seq [.alignedBytes]
      deserialize := .zeroCopy }
  bytes := (4, 4)
  fields := [(true, 32, 32)]

/-- `uavcan::si::unit::duration::scalar_1_0::Scalar` (canadensis_data_types/src/generated.rs L15603). -/
def t1 : Entry where
  path := "uavcan::si::unit::duration::scalar_1_0::Scalar"
  dsdl := "uavcan.si.unit.duration.Scalar.1.0"
  role := .message
  definition := ⟨none, false, .struct [.data "second" (.prim .float32) .scalar]⟩
  code :=
    { shape := .struct true [("second", (.one .f32))]
      extentBytes := none
      sizeBits := .sum [.lit 32]
      serialize := .seq [.alignedBytes]
      deserialize := .zeroCopy }
  bytes := (4, 4)
  fields := [(true, 32, 32)]

/-- `uavcan::si::unit::power::scalar_1_0::Scalar` (canadensis_data_types/src/generated.rs L16676). -/
def t2 : Entry where
  path := "uavcan::si::unit::power::scalar_1_0::Scalar"
  dsdl := "uavcan.si.unit.power.Scalar.1.0"
  role := .message
  definition := ⟨none, false, .struct [.data "watt" (.prim .float32) .scalar]⟩
  code :=
    { shape := .struct true [("watt", (.one .f32))]
      extentBytes := none
      sizeBits := .sum [.lit 32]
      serialize := .seq [.alignedBytes]
      deserialize := .zeroCopy }
  bytes := (4, 4)
  fields := [(true, 32, 32)]

/-- `reg::udral::physics::acoustics::note_0_1::Note` (canadensis_data_types/src/generated.rs L10). -/
def t3 : Entry where
  path := "reg::udral::physics::acoustics::note_0_1::Note"
  dsdl := "reg.udral.physics.acoustics.Note.0.1"
  role := .message
  definition := ⟨none, false, .struct [.data "frequency" (.type 0) .scalar, .data "duration" (.type 1) .scalar, .data "acoustic_power" (.type 2) .scalar]⟩
  code :=
    { shape := .struct true [("frequency", (.one (.type 0))), ("duration", (.one (.type 1))), ("acoustic_power", (.one (.type 2)))]
      extentBytes := none
      sizeBits := .sum [.lit 96]
      serialize := .seq [.alignedBytes]
      deserialize := .zeroCopy }
  bytes := (12, 12)
  fields := [(true, 32, 32), (true, 32, 32), (true, 32, 32)]

/-- `uavcan::si::unit::angle::scalar_1_0::Scalar` (canadensis_data_types/src/generated.rs L15215). -/
def t4 : Entry where
  path := "uavcan::si::unit::angle::scalar_1_0::Scalar"
  dsdl := "uavcan.si.unit.angle.Scalar.1.0"
  role := .message
  definition := ⟨none, false, .struct [.data "radian" (.prim .float32) .scalar]⟩
  code :=
    { shape := .struct true [("radian", (.one .f32))]
      extentBytes := none
      sizeBits := .sum [.lit 32]
      serialize := .seq [.alignedBytes]
      deserialize := .zeroCopy }
  bytes := (4, 4)
  fields := [(true, 32, 32)]

/-- `uavcan::si::unit::angular_velocity::scalar_1_0::Scalar` (canadensis_data_types/src/generated.rs L15507). -/
def t5 : Entry where
  path := "uavcan::si::unit::angular_velocity::scalar_1_0::Scalar"
  dsdl := "uavcan.si.unit.angular_velocity.Scalar.1.0"
  role := .message
  definition := ⟨none, false, .struct [.data "radian_per_second" (.prim .float32) .scalar]⟩
  code :=
    { shape := .struct true [("radian_per_second", (.one .f32))]
      extentBytes := none
      sizeBits := .sum [.lit 32]
      serialize := .seq [.alignedBytes]
      deserialize := .zeroCopy }
  bytes := (4, 4)
  fields := [(true, 32, 32)]

/-- `uavcan::si::unit::angular_acceleration::scalar_1_0::Scalar` (canadensis_data_types/src/generated.rs L15405). -/
def t6 : Entry where
  path := "uavcan::si::unit::angular_acceleration::scalar_1_0::Scalar"
  dsdl := "uavcan.si.unit.angular_acceleration.Scalar.1.0"
  role := .message
  definition := ⟨none, false, .struct [.data "radian_per_second_per_second" (.prim .float32) .scalar]⟩
  code :=
    { shape := .struct true [("radian_per_second_per_second", (.one .f32))]
      extentBytes := none
      sizeBits := .sum [.lit 32]
      serialize := .seq [.alignedBytes]
      deserialize := .zeroCopy }
  bytes := (4, 4)
  fields := [(true, 32, 32)]

/-- `reg::udral::physics::kinematics::rotation::planar_0_1::Planar` (canadensis_data_types/src/generated.rs L1972). -/
def t7 : Entry where
  path := "reg::udral::physics::kinematics::rotation::planar_0_1::Planar"
  dsdl := "reg.udral.physics.kinematics.rotation.Planar.0.1"
  role := .message
  definition := ⟨none, false, .struct [.data "angular_position" (.type 4) .scalar, .data "angular_velocity" (.type 5) .scalar, .data "angular_acceleration" (.type 6) .scalar]⟩
  code :=
    { shape := .struct true [("angular_position", (.one (.type 4))), ("angular_velocity", (.one (.type 5))), ("angular_acceleration", (.one (.type 6)))]
      extentBytes := none
      sizeBits := .sum [.lit 96]
      serialize := .seq [.alignedBytes]
      deserialize := .zeroCopy }
  bytes := (12, 12)
  fields := [(true, 32, 32), (true, 32, 32), (true, 32, 32)]

/-- `uavcan::si::unit::torque::scalar_1_0::Scalar` (canadensis_data_types/src/generated.rs L16823). -/
def t8 : Entry where
  path := "uavcan::si::unit::torque::scalar_1_0::Scalar"
  dsdl := "uavcan.si.unit.torque.Scalar.1.0"
  role := .message
  definition := ⟨none, false, .struct [.data "newton_meter" (.prim .float32) .scalar]⟩
  code :=
    { shape := .struct true [("newton_meter", (.one .f32))]
      extentBytes := none
      sizeBits := .sum [.lit 32]
      serialize := .seq [.alignedBytes]
      deserialize := .zeroCopy }
  bytes := (4, 4)
  fields := [(true, 32, 32)]

/-- `reg::udral::physics::dynamics::rotation::planar_0_1::Planar` (canadensis_data_types/src/generated.rs L78). -/
def t9 : Entry where
  path := "reg::udral::physics::dynamics::rotation::planar_0_1::Planar"
  dsdl := "reg.udral.physics.dynamics.rotation.Planar.0.1"
  role := .message
  definition := ⟨none, false, .struct [.data "kinematics" (.type 7) .scalar, .data "torque" (.type 8) .scalar]⟩
  code :=
    { shape := .struct true [("kinematics", (.one (.type 7))), ("torque", (.one (.type 8)))]
      extentBytes := none
      sizeBits := .sum [.lit 128]
      serialize := .seq [.alignedBytes]
      deserialize := .zeroCopy }
  bytes := (16, 16)
  fields := [(true, 96, 96), (true, 32, 32)]

/-- `uavcan::time::synchronized_timestamp_1_0::SynchronizedTimestamp` (canadensis_data_types/src/generated.rs L17345). -/
def t10 : Entry where
  path := "uavcan::time::synchronized_timestamp_1_0::SynchronizedTimestamp"
  dsdl := "uavcan.time.SynchronizedTimestamp.1.0"
  role := .message
  definition := ⟨none, false, .struct [.data "microsecond" (.prim (.uint 56 false)) .scalar]⟩
  code :=
    { shape := .struct false [("microsecond", (.one (.unsigned 64)))]
      extentBytes := none
      sizeBits := .sum [.lit 56]
      serialize := .seq [.write 56 (.get (.self "microsecond"))]
      deserialize := .struct [⟨"microsecond", [], .one (.num 56)⟩] }
  bytes := (7, 7)
  fields := [(true, 56, 56)]

/-- `reg::udral::physics::dynamics::rotation::planar_ts_0_1::PlanarTs` (canadensis_data_types/src/generated.rs L140). -/
def t11 : Entry where
  path := "reg::udral::physics::dynamics::rotation::planar_ts_0_1::PlanarTs"
  dsdl := "reg.udral.physics.dynamics.rotation.PlanarTs.0.1"
  role := .message
  definition := ⟨none, false, .struct [.data "timestamp" (.type 10) .scalar, .data "value" (.type 9) .scalar]⟩
  code :=
    { shape := .struct false [("timestamp", (.one (.type 10))), ("value", (.one (.type 9)))]
      extentBytes := none
      sizeBits := .sum [.lit 184]
      serialize := .seq [.writeComposite (.self "timestamp"), .writeComposite (.self "value")]
      deserialize := .struct [⟨"timestamp", [], .one .composite⟩, ⟨"value", [], .one .composite⟩] }
  bytes := (23, 23)
  fields := [(true, 56, 56), (true, 128, 128)]

/-- `uavcan::si::unit::length::scalar_1_0::Scalar` (canadensis_data_types/src/generated.rs L16085). -/
def t12 : Entry where
  path := "uavcan::si::unit::length::scalar_1_0::Scalar"
  dsdl := "uavcan.si.unit.length.Scalar.1.0"
  role := .message
  definition := ⟨none, false, .struct [.data "meter" (.prim .float32) .scalar]⟩
  code :=
    { shape := .struct true [("meter", (.one .f32))]
      extentBytes := none
      sizeBits := .sum [.lit 32]
      serialize := .seq [.alignedBytes]
      deserialize := .zeroCopy }
  bytes := (4, 4)
  fields := [(true, 32, 32)]

/-- `uavcan::si::unit::velocity::scalar_1_0::Scalar` (canadensis_data_types/src/generated.rs L16919). -/
def t13 : Entry where
  path := "uavcan::si::unit::velocity::scalar_1_0::Scalar"
  dsdl := "uavcan.si.unit.velocity.Scalar.1.0"
  role := .message
  definition := ⟨none, false, .struct [.data "meter_per_second" (.prim .float32) .scalar]⟩
  code :=
    { shape := .struct true [("meter_per_second", (.one .f32))]
      extentBytes := none
      sizeBits := .sum [.lit 32]
      serialize := .seq [.alignedBytes]
      deserialize := .zeroCopy }
  bytes := (4, 4)
  fields := [(true, 32, 32)]

/-- `uavcan::si::unit::acceleration::scalar_1_0::Scalar` (canadensis_data_types/src/generated.rs L14972). -/
def t14 : Entry where
  path := "uavcan::si::unit::acceleration::scalar_1_0::Scalar"
  dsdl := "uavcan.si.unit.acceleration.Scalar.1.0"
  role := .message
  definition := ⟨none, false, .struct [.data "meter_per_second_per_second" (.prim .float32) .scalar]⟩
  code :=
    { shape := .struct true [("meter_per_second_per_second", (.one .f32))]
      extentBytes := none
      sizeBits := .sum [.lit 32]
      serialize := .seq [.alignedBytes]
      deserialize := .zeroCopy }
  bytes := (4, 4)
  fields := [(true, 32, 32)]

/-- `reg::udral::physics::kinematics::translation::linear_0_1::Linear` (canadensis_data_types/src/generated.rs L2096). -/
def t15 : Entry where
  path := "reg::udral::physics::kinematics::translation::linear_0_1::Linear"
  dsdl := "reg.udral.physics.kinematics.translation.Linear.0.1"
  role := .message
  definition := ⟨none, false, .struct [.data "position" (.type 12) .scalar, .data "velocity" (.type 13) .scalar, .data "acceleration" (.type 14) .scalar]⟩
  code :=
    { shape := .struct true [("position", (.one (.type 12))), ("velocity", (.one (.type 13))), ("acceleration", (.one (.type 14)))]
      extentBytes := none
      sizeBits := .sum [.lit 96]
      serialize := .seq [.alignedBytes]
      deserialize := .zeroCopy }
  bytes := (12, 12)
  fields := [(true, 32, 32), (true, 32, 32), (true, 32, 32)]

/-- `uavcan::si::unit::force::scalar_1_0::Scalar` (canadensis_data_types/src/generated.rs L15846). -/
def t16 : Entry where
  path := "uavcan::si::unit::force::scalar_1_0::Scalar"
  dsdl := "uavcan.si.unit.force.Scalar.1.0"
  role := .message
  definition := ⟨none, false, .struct [.data "newton" (.prim .float32) .scalar]⟩
  code :=
    { shape := .struct true [("newton", (.one .f32))]
      extentBytes := none
      sizeBits := .sum [.lit 32]
      serialize := .seq [.alignedBytes]
      deserialize := .zeroCopy }
  bytes := (4, 4)
  fields := [(true, 32, 32)]

/-- `reg::udral::physics::dynamics::translation::linear_0_1::Linear` (canadensis_data_types/src/generated.rs L193). -/
def t17 : Entry where
  path := "reg::udral::physics::dynamics::translation::linear_0_1::Linear"
  dsdl := "reg.udral.physics.dynamics.translation.Linear.0.1"
  role := .message
  definition := ⟨none, false, .struct [.data "kinematics" (.type 15) .scalar, .data "force" (.type 16) .scalar]⟩
  code :=
    { shape := .struct true [("kinematics", (.one (.type 15))), ("force", (.one (.type 16)))]
      extentBytes := none
      sizeBits := .sum [.lit 128]
      serialize := .seq [.alignedBytes]
      deserialize := .zeroCopy }
  bytes := (16, 16)
  fields := [(true, 96, 96), (true, 32, 32)]

/-- `reg::udral::physics::dynamics::translation::linear_ts_0_1::LinearTs` (canadensis_data_types/src/generated.rs L255). -/
def t18 : Entry where
  path := "reg::udral::physics::dynamics::translation::linear_ts_0_1::LinearTs"
  dsdl := "reg.udral.physics.dynamics.translation.LinearTs.0.1"
  role := .message
  definition := ⟨none, false, .struct [.data "timestamp" (.type 10) .scalar, .data "value" (.type 17) .scalar]⟩
  code :=
    { shape := .struct false [("timestamp", (.one (.type 10))), ("value", (.one (.type 17)))]
      extentBytes := none
      sizeBits := .sum [.lit 184]
      serialize := .seq [.writeComposite (.self "timestamp"), .writeComposite (.self "value")]
      deserialize := .struct [⟨"timestamp", [], .one .composite⟩, ⟨"value", [], .one .composite⟩] }
  bytes := (23, 23)
  fields := [(true, 56, 56), (true, 128, 128)]

/-- `uavcan::si::unit::electric_current::scalar_1_0::Scalar` (canadensis_data_types/src/generated.rs L15748). -/
def t19 : Entry where
  path := "uavcan::si::unit::electric_current::scalar_1_0::Scalar"
  dsdl := "uavcan.si.unit.electric_current.Scalar.1.0"
  role := .message
  definition := ⟨none, false, .struct [.data "ampere" (.prim .float32) .scalar]⟩
  code :=
    { shape := .struct true [("ampere", (.one .f32))]
      extentBytes := none
      sizeBits := .sum [.lit 32]
      serialize := .seq [.alignedBytes]
      deserialize := .zeroCopy }
  bytes := (4, 4)
  fields := [(true, 32, 32)]

/-- `uavcan::si::unit::voltage::scalar_1_0::Scalar` (canadensis_data_types/src/generated.rs L17015). -/
def t20 : Entry where
  path := "uavcan::si::unit::voltage::scalar_1_0::Scalar"
  dsdl := "uavcan.si.unit.voltage.Scalar.1.0"
  role := .message
  definition := ⟨none, false, .struct [.data "volt" (.prim .float32) .scalar]⟩
  code :=
    { shape := .struct true [("volt", (.one .f32))]
      extentBytes := none
      sizeBits := .sum [.lit 32]
      serialize := .seq [.alignedBytes]
      deserialize := .zeroCopy }
  bytes := (4, 4)
  fields := [(true, 32, 32)]

/-- `reg::udral::physics::electricity::power_0_1::Power` (canadensis_data_types/src/generated.rs L309). -/
def t21 : Entry where
  path := "reg::udral::physics::electricity::power_0_1::Power"
  dsdl := "reg.udral.physics.electricity.Power.0.1"
  role := .message
  definition := ⟨none, false, .struct [.data "current" (.type 19) .scalar, .data "voltage" (.type 20) .scalar]⟩
  code :=
    { shape := .struct true [("current", (.one (.type 19))), ("voltage", (.one (.type 20)))]
      extentBytes := none
      sizeBits := .sum [.lit 64]
      serialize := .seq [.alignedBytes]
      deserialize := .zeroCopy }
  bytes := (8, 8)
  fields := [(true, 32, 32), (true, 32, 32)]

/-- `reg::udral::physics::electricity::power_ts_0_1::PowerTs` (canadensis_data_types/src/generated.rs L367). -/
def t22 : Entry where
  path := "reg::udral::physics::electricity::power_ts_0_1::PowerTs"
  dsdl := "reg.udral.physics.electricity.PowerTs.0.1"
  role := .message
  definition := ⟨none, false, .struct [.data "timestamp" (.type 10) .scalar, .data "value" (.type 21) .scalar]⟩
  code :=
    { shape := .struct false [("timestamp", (.one (.type 10))), ("value", (.one (.type 21)))]
      extentBytes := none
      sizeBits := .sum [.lit 120]
      serialize := .seq [.writeComposite (.self "timestamp"), .writeComposite (.self "value")]
      deserialize := .struct [⟨"timestamp", [], .one .composite⟩, ⟨"value", [], .one .composite⟩] }
  bytes := (15, 15)
  fields := [(true, 56, 56), (true, 64, 64)]

/-- `uavcan::si::unit::energy::scalar_1_0::Scalar` (canadensis_data_types/src/generated.rs L15797). -/
def t23 : Entry where
  path := "uavcan::si::unit::energy::scalar_1_0::Scalar"
  dsdl := "uavcan.si.unit.energy.Scalar.1.0"
  role := .message
  definition := ⟨none, false, .struct [.data "joule" (.prim .float32) .scalar]⟩
  code :=
    { shape := .struct true [("joule", (.one .f32))]
      extentBytes := none
      sizeBits := .sum [.lit 32]
      serialize := .seq [.alignedBytes]
      deserialize := .zeroCopy }
  bytes := (4, 4)
  fields := [(true, 32, 32)]

/-- `reg::udral::physics::electricity::source_0_1::Source` (canadensis_data_types/src/generated.rs L416). -/
def t24 : Entry where
  path := "reg::udral::physics::electricity::source_0_1::Source"
  dsdl := "reg.udral.physics.electricity.Source.0.1"
  role := .message
  definition := ⟨none, false, .struct [.data "power" (.type 21) .scalar, .data "energy" (.type 23) .scalar, .data "full_energy" (.type 23) .scalar]⟩
  code :=
    { shape := .struct true [("power", (.one (.type 21))), ("energy", (.one (.type 23))), ("full_energy", (.one (.type 23)))]
      extentBytes := none
      sizeBits := .sum [.lit 128]
      serialize := .seq [.alignedBytes]
      deserialize := .zeroCopy }
  bytes := (16, 16)
  fields := [(true, 64, 64), (true, 32, 32), (true, 32, 32)]

/-- `reg::udral::physics::electricity::source_ts_0_1::SourceTs` (canadensis_data_types/src/generated.rs L493). -/
def t25 : Entry where
  path := "reg::udral::physics::electricity::source_ts_0_1::SourceTs"
  dsdl := "reg.udral.physics.electricity.SourceTs.0.1"
  role := .message
  definition := ⟨none, false, .struct [.data "timestamp" (.type 10) .scalar, .data "value" (.type 24) .scalar]⟩
  code :=
    { shape := .struct false [("timestamp", (.one (.type 10))), ("value", (.one (.type 24)))]
      extentBytes := none
      sizeBits := .sum [.lit 184]
      serialize := .seq [.writeComposite (.self "timestamp"), .writeComposite (.self "value")]
      deserialize := .struct [⟨"timestamp", [], .one .composite⟩, ⟨"value", [], .one .composite⟩] }
  bytes := (23, 23)
  fields := [(true, 56, 56), (true, 128, 128)]

/-- `uavcan::si::unit::length::wide_vector3_1_0::WideVector3` (canadensis_data_types/src/generated.rs L16226). -/
def t26 : Entry where
  path := "uavcan::si::unit::length::wide_vector3_1_0::WideVector3"
  dsdl := "uavcan.si.unit.length.WideVector3.1.0"
  role := .message
  definition := ⟨none, false, .struct [.data "meter" (.prim .float64) (.fixed 3)]⟩
  code :=
    { shape := .struct true [("meter", (.array .f64 3))]
      extentBytes := none
      sizeBits := .sum [.lit 192]
      serialize := .seq [.alignedBytes]
      deserialize := .zeroCopy }
  bytes := (24, 24)
  fields := [(true, 192, 192)]

/-- `reg::udral::physics::kinematics::cartesian::point_0_1::Point` (canadensis_data_types/src/generated.rs L545). -/
def t27 : Entry where
  path := "reg::udral::physics::kinematics::cartesian::point_0_1::Point"
  dsdl := "reg.udral.physics.kinematics.cartesian.Point.0.1"
  role := .message
  definition := ⟨none, false, .struct [.data "value" (.type 26) .scalar]⟩
  code :=
    { shape := .struct true [("value", (.one (.type 26)))]
      extentBytes := none
      sizeBits := .sum [.lit 192]
      serialize := .seq [.alignedBytes]
      deserialize := .zeroCopy }
  bytes := (24, 24)
  fields := [(true, 192, 192)]

/-- `uavcan::si::unit::velocity::vector3_1_0::Vector3` (canadensis_data_types/src/generated.rs L16966). -/
def t28 : Entry where
  path := "uavcan::si::unit::velocity::vector3_1_0::Vector3"
  dsdl := "uavcan.si.unit.velocity.Vector3.1.0"
  role := .message
  definition := ⟨none, false, .struct [.data "meter_per_second" (.prim .float32) (.fixed 3)]⟩
  code :=
    { shape := .struct true [("meter_per_second", (.array .f32 3))]
      extentBytes := none
      sizeBits := .sum [.lit 96]
      serialize := .seq [.alignedBytes]
      deserialize := .zeroCopy }
  bytes := (12, 12)
  fields := [(true, 96, 96)]

/-- `reg::udral::physics::kinematics::cartesian::point_state_0_1::PointState` (canadensis_data_types/src/generated.rs L600). -/
def t29 : Entry where
  path := "reg::udral::physics::kinematics::cartesian::point_state_0_1::PointState"
  dsdl := "reg.udral.physics.kinematics.cartesian.PointState.0.1"
  role := .message
  definition := ⟨none, false, .struct [.data "position" (.type 27) .scalar, .data "velocity" (.type 28) .scalar]⟩
  code :=
    { shape := .struct true [("position", (.one (.type 27))), ("velocity", (.one (.type 28)))]
      extentBytes := none
      sizeBits := .sum [.lit 288]
      serialize := .seq [.alignedBytes]
      deserialize := .zeroCopy }
  bytes := (36, 36)
  fields := [(true, 192, 192), (true, 96, 96)]

/-- `reg::udral::physics::kinematics::cartesian::point_var_0_1::PointVar` (canadensis_data_types/src/generated.rs L771). -/
def t30 : Entry where
  path := "reg::udral::physics::kinematics::cartesian::point_var_0_1::PointVar"
  dsdl := "reg.udral.physics.kinematics.cartesian.PointVar.0.1"
  role := .message
  definition := ⟨none, false, .struct [.data "value" (.type 27) .scalar, .data "covariance_urt" (.prim .float16) (.fixed 6)]⟩
  code :=
    { shape := .struct true [("value", (.one (.type 27))), ("covariance_urt", (.array .f16 6))]
      extentBytes := none
      sizeBits := .sum [.lit 288]
      serialize := .seq [.alignedBytes]
      deserialize := .zeroCopy }
  bytes := (36, 36)
  fields := [(true, 192, 192), (true, 96, 96)]

/-- `reg::udral::physics::kinematics::translation::velocity3_var_0_2::Velocity3Var` (canadensis_data_types/src/generated.rs L2416). -/
def t31 : Entry where
  path := "reg::udral::physics::kinematics::translation::velocity3_var_0_2::Velocity3Var"
  dsdl := "reg.udral.physics.kinematics.translation.Velocity3Var.0.2"
  role := .message
  definition := ⟨none, false, .struct [.data "value" (.type 28) .scalar, .data "covariance_urt" (.prim .float16) (.fixed 6)]⟩
  code :=
    { shape := .struct true [("value", (.one (.type 28))), ("covariance_urt", (.array .f16 6))]
      extentBytes := none
      sizeBits := .sum [.lit 192]
      serialize := .seq [.alignedBytes]
      deserialize := .zeroCopy }
  bytes := (24, 24)
  fields := [(true, 96, 96), (true, 96, 96)]

/-- `reg::udral::physics::kinematics::cartesian::point_state_var_0_1::PointStateVar` (canadensis_data_types/src/generated.rs L662). -/
def t32 : Entry where
  path := "reg::udral::physics::kinematics::cartesian::point_state_var_0_1::PointStateVar"
  dsdl := "reg.udral.physics.kinematics.cartesian.PointStateVar.0.1"
  role := .message
  definition := ⟨none, false, .struct [.data "position" (.type 30) .scalar, .data "velocity" (.type 31) .scalar]⟩
  code :=
    { shape := .struct true [("position", (.one (.type 30))), ("velocity", (.one (.type 31)))]
      extentBytes := none
      sizeBits := .sum [.lit 480]
      serialize := .seq [.alignedBytes]
      deserialize := .zeroCopy }
  bytes := (60, 60)
  fields := [(true, 288, 288), (true, 192, 192)]

/-- `reg::udral::physics::kinematics::cartesian::point_state_var_ts_0_1::PointStateVarTs` (canadensis_data_types/src/generated.rs L720). -/
def t33 : Entry where
  path := "reg::udral::physics::kinematics::cartesian::point_state_var_ts_0_1::PointStateVarTs"
  dsdl := "reg.udral.physics.kinematics.cartesian.PointStateVarTs.0.1"
  role := .message
  definition := ⟨none, false, .struct [.data "timestamp" (.type 10) .scalar, .data "value" (.type 32) .scalar]⟩
  code :=
    { shape := .struct false [("timestamp", (.one (.type 10))), ("value", (.one (.type 32)))]
      extentBytes := none
      sizeBits := .sum [.lit 536]
      serialize := .seq [.writeComposite (.self "timestamp"), .writeComposite (.self "value")]
      deserialize := .struct [⟨"timestamp", [], .one .composite⟩, ⟨"value", [], .one .composite⟩] }
  bytes := (67, 67)
  fields := [(true, 56, 56), (true, 480, 480)]

/-- `uavcan::si::unit::angle::quaternion_1_0::Quaternion` (canadensis_data_types/src/generated.rs L15168). -/
def t34 : Entry where
  path := "uavcan::si::unit::angle::quaternion_1_0::Quaternion"
  dsdl := "uavcan.si.unit.angle.Quaternion.1.0"
  role := .message
  definition := ⟨none, false, .struct [.data "wxyz" (.prim .float32) (.fixed 4)]⟩
  code :=
    { shape := .struct true [("wxyz", (.array .f32 4))]
      extentBytes := none
      sizeBits := .sum [.lit 128]
      serialize := .seq [.alignedBytes]
      deserialize := .zeroCopy }
  bytes := (16, 16)
  fields := [(true, 128, 128)]

/-- `reg::udral::physics::kinematics::cartesian::pose_0_1::Pose` (canadensis_data_types/src/generated.rs L833). -/
def t35 : Entry where
  path := "reg::udral::physics::kinematics::cartesian::pose_0_1::Pose"
  dsdl := "reg.udral.physics.kinematics.cartesian.Pose.0.1"
  role := .message
  definition := ⟨none, false, .struct [.data "position" (.type 27) .scalar, .data "orientation" (.type 34) .scalar]⟩
  code :=
    { shape := .struct true [("position", (.one (.type 27))), ("orientation", (.one (.type 34)))]
      extentBytes := none
      sizeBits := .sum [.lit 320]
      serialize := .seq [.alignedBytes]
      deserialize := .zeroCopy }
  bytes := (40, 40)
  fields := [(true, 192, 192), (true, 128, 128)]

/-- `reg::udral::physics::kinematics::cartesian::pose_var_0_1::PoseVar` (canadensis_data_types/src/generated.rs L892). -/
def t36 : Entry where
  path := "reg::udral::physics::kinematics::cartesian::pose_var_0_1::PoseVar"
  dsdl := "reg.udral.physics.kinematics.cartesian.PoseVar.0.1"
  role := .message
  definition := ⟨none, false, .struct [.data "value" (.type 35) .scalar, .data "covariance_urt" (.prim .float16) (.fixed 21)]⟩
  code :=
    { shape := .struct true [("value", (.one (.type 35))), ("covariance_urt", (.array .f16 21))]
      extentBytes := none
      sizeBits := .sum [.lit 656]
      serialize := .seq [.alignedBytes]
      deserialize := .zeroCopy }
  bytes := (82, 82)
  fields := [(true, 320, 320), (true, 336, 336)]

/-- `reg::udral::physics::kinematics::cartesian::pose_var_ts_0_1::PoseVarTs` (canadensis_data_types/src/generated.rs L954). -/
def t37 : Entry where
  path := "reg::udral::physics::kinematics::cartesian::pose_var_ts_0_1::PoseVarTs"
  dsdl := "reg.udral.physics.kinematics.cartesian.PoseVarTs.0.1"
  role := .message
  definition := ⟨none, false, .struct [.data "timestamp" (.type 10) .scalar, .data "value" (.type 36) .scalar]⟩
  code :=
    { shape := .struct false [("timestamp", (.one (.type 10))), ("value", (.one (.type 36)))]
      extentBytes := none
      sizeBits := .sum [.lit 712]
      serialize := .seq [.writeComposite (.self "timestamp"), .writeComposite (.self "value")]
      deserialize := .struct [⟨"timestamp", [], .one .composite⟩, ⟨"value", [], .one .composite⟩] }
  bytes := (89, 89)
  fields := [(true, 56, 56), (true, 656, 656)]

/-- `uavcan::si::unit::angular_velocity::vector3_1_0::Vector3` (canadensis_data_types/src/generated.rs L15554). -/
def t38 : Entry where
  path := "uavcan::si::unit::angular_velocity::vector3_1_0::Vector3"
  dsdl := "uavcan.si.unit.angular_velocity.Vector3.1.0"
  role := .message
  definition := ⟨none, false, .struct [.data "radian_per_second" (.prim .float32) (.fixed 3)]⟩
  code :=
    { shape := .struct true [("radian_per_second", (.array .f32 3))]
      extentBytes := none
      sizeBits := .sum [.lit 96]
      serialize := .seq [.alignedBytes]
      deserialize := .zeroCopy }
  bytes := (12, 12)
  fields := [(true, 96, 96)]

/-- `reg::udral::physics::kinematics::cartesian::twist_0_1::Twist` (canadensis_data_types/src/generated.rs L1180). -/
def t39 : Entry where
  path := "reg::udral::physics::kinematics::cartesian::twist_0_1::Twist"
  dsdl := "reg.udral.physics.kinematics.cartesian.Twist.0.1"
  role := .message
  definition := ⟨none, false, .struct [.data "linear" (.type 28) .scalar, .data "angular" (.type 38) .scalar]⟩
  code :=
    { shape := .struct true [("linear", (.one (.type 28))), ("angular", (.one (.type 38)))]
      extentBytes := none
      sizeBits := .sum [.lit 192]
      serialize := .seq [.alignedBytes]
      deserialize := .zeroCopy }
  bytes := (24, 24)
  fields := [(true, 96, 96), (true, 96, 96)]

/-- `reg::udral::physics::kinematics::cartesian::state_0_1::State` (canadensis_data_types/src/generated.rs L1005). -/
def t40 : Entry where
  path := "reg::udral::physics::kinematics::cartesian::state_0_1::State"
  dsdl := "reg.udral.physics.kinematics.cartesian.State.0.1"
  role := .message
  definition := ⟨none, false, .struct [.data "pose" (.type 35) .scalar, .data "twist" (.type 39) .scalar]⟩
  code :=
    { shape := .struct true [("pose", (.one (.type 35))), ("twist", (.one (.type 39)))]
      extentBytes := none
      sizeBits := .sum [.lit 512]
      serialize := .seq [.alignedBytes]
      deserialize := .zeroCopy }
  bytes := (64, 64)
  fields := [(true, 320, 320), (true, 192, 192)]

/-- `reg::udral::physics::kinematics::cartesian::twist_var_0_1::TwistVar` (canadensis_data_types/src/generated.rs L1247). -/
def t41 : Entry where
  path := "reg::udral::physics::kinematics::cartesian::twist_var_0_1::TwistVar"
  dsdl := "reg.udral.physics.kinematics.cartesian.TwistVar.0.1"
  role := .message
  definition := ⟨none, false, .struct [.data "value" (.type 39) .scalar, .data "covariance_urt" (.prim .float16) (.fixed 21)]⟩
  code :=
    { shape := .struct true [("value", (.one (.type 39))), ("covariance_urt", (.array .f16 21))]
      extentBytes := none
      sizeBits := .sum [.lit 528]
      serialize := .seq [.alignedBytes]
      deserialize := .zeroCopy }
  bytes := (66, 66)
  fields := [(true, 192, 192), (true, 336, 336)]

/-- `reg::udral::physics::kinematics::cartesian::state_var_0_1::StateVar` (canadensis_data_types/src/generated.rs L1068). -/
def t42 : Entry where
  path := "reg::udral::physics::kinematics::cartesian::state_var_0_1::StateVar"
  dsdl := "reg.udral.physics.kinematics.cartesian.StateVar.0.1"
  role := .message
  definition := ⟨none, false, .struct [.data "pose" (.type 36) .scalar, .data "twist" (.type 41) .scalar]⟩
  code :=
    { shape := .struct true [("pose", (.one (.type 36))), ("twist", (.one (.type 41)))]
      extentBytes := none
      sizeBits := .sum [.lit 1184]
      serialize := .seq [.alignedBytes]
      deserialize := .zeroCopy }
  bytes := (148, 148)
  fields := [(true, 656, 656), (true, 528, 528)]

/-- `reg::udral::physics::kinematics::cartesian::state_var_ts_0_1::StateVarTs` (canadensis_data_types/src/generated.rs L1129). -/
def t43 : Entry where
  path := "reg::udral::physics::kinematics::cartesian::state_var_ts_0_1::StateVarTs"
  dsdl := "reg.udral.physics.kinematics.cartesian.StateVarTs.0.1"
  role := .message
  definition := ⟨none, false, .struct [.data "timestamp" (.type 10) .scalar, .data "value" (.type 42) .scalar]⟩
  code :=
    { shape := .struct false [("timestamp", (.one (.type 10))), ("value", (.one (.type 42)))]
      extentBytes := none
      sizeBits := .sum [.lit 1240]
      serialize := .seq [.writeComposite (.self "timestamp"), .writeComposite (.self "value")]
      deserialize := .struct [⟨"timestamp", [], .one .composite⟩, ⟨"value", [], .one .composite⟩] }
  bytes := (155, 155)
  fields := [(true, 56, 56), (true, 1184, 1184)]

/-- `reg::udral::physics::kinematics::cartesian::twist_var_ts_0_1::TwistVarTs` (canadensis_data_types/src/generated.rs L1309). -/
def t44 : Entry where
  path := "reg::udral::physics::kinematics::cartesian::twist_var_ts_0_1::TwistVarTs"
  dsdl := "reg.udral.physics.kinematics.cartesian.TwistVarTs.0.1"
  role := .message
  definition := ⟨none, false, .struct [.data "timestamp" (.type 10) .scalar, .data "value" (.type 41) .scalar]⟩
  code :=
    { shape := .struct false [("timestamp", (.one (.type 10))), ("value", (.one (.type 41)))]
      extentBytes := none
      sizeBits := .sum [.lit 584]
      serialize := .seq [.writeComposite (.self "timestamp"), .writeComposite (.self "value")]
      deserialize := .struct [⟨"timestamp", [], .one .composite⟩, ⟨"value", [], .one .composite⟩] }
  bytes := (73, 73)
  fields := [(true, 56, 56), (true, 528, 528)]

/-- `uavcan::si::unit::length::wide_scalar_1_0::WideScalar` (canadensis_data_types/src/generated.rs L16179). -/
def t45 : Entry where
  path := "uavcan::si::unit::length::wide_scalar_1_0::WideScalar"
  dsdl := "uavcan.si.unit.length.WideScalar.1.0"
  role := .message
  definition := ⟨none, false, .struct [.data "meter" (.prim .float64) .scalar]⟩
  code :=
    { shape := .struct true [("meter", (.one .f64))]
      extentBytes := none
      sizeBits := .sum [.lit 64]
      serialize := .seq [.alignedBytes]
      deserialize := .zeroCopy }
  bytes := (8, 8)
  fields := [(true, 64, 64)]

/-- `reg::udral::physics::kinematics::geodetic::point_0_1::Point` (canadensis_data_types/src/generated.rs L1362). -/
def t46 : Entry where
  path := "reg::udral::physics::kinematics::geodetic::point_0_1::Point"
  dsdl := "reg.udral.physics.kinematics.geodetic.Point.0.1"
  role := .message
  definition := ⟨none, false, .struct [.data "latitude" (.prim .float64) .scalar, .data "longitude" (.prim .float64) .scalar, .data "altitude" (.type 45) .scalar]⟩
  code :=
    { shape := .struct true [("latitude", (.one .f64)), ("longitude", (.one .f64)), ("altitude", (.one (.type 45)))]
      extentBytes := none
      sizeBits := .sum [.lit 192]
      serialize := .seq [.alignedBytes]
      deserialize := .zeroCopy }
  bytes := (24, 24)
  fields := [(true, 64, 64), (true, 64, 64), (true, 64, 64)]

/-- `reg::udral::physics::kinematics::geodetic::point_state_0_1::PointState` (canadensis_data_types/src/generated.rs L1437). -/
def t47 : Entry where
  path := "reg::udral::physics::kinematics::geodetic::point_state_0_1::PointState"
  dsdl := "reg.udral.physics.kinematics.geodetic.PointState.0.1"
  role := .message
  definition := ⟨none, false, .struct [.data "position" (.type 46) .scalar, .data "velocity" (.type 28) .scalar]⟩
  code :=
    { shape := .struct true [("position", (.one (.type 46))), ("velocity", (.one (.type 28)))]
      extentBytes := none
      sizeBits := .sum [.lit 288]
      serialize := .seq [.alignedBytes]
      deserialize := .zeroCopy }
  bytes := (36, 36)
  fields := [(true, 192, 192), (true, 96, 96)]

/-- `reg::udral::physics::kinematics::geodetic::point_var_0_1::PointVar` (canadensis_data_types/src/generated.rs L1608). -/
def t48 : Entry where
  path := "reg::udral::physics::kinematics::geodetic::point_var_0_1::PointVar"
  dsdl := "reg.udral.physics.kinematics.geodetic.PointVar.0.1"
  role := .message
  definition := ⟨none, false, .struct [.data "value" (.type 46) .scalar, .data "covariance_urt" (.prim .float16) (.fixed 6)]⟩
  code :=
    { shape := .struct true [("value", (.one (.type 46))), ("covariance_urt", (.array .f16 6))]
      extentBytes := none
      sizeBits := .sum [.lit 288]
      serialize := .seq [.alignedBytes]
      deserialize := .zeroCopy }
  bytes := (36, 36)
  fields := [(true, 192, 192), (true, 96, 96)]

/-- `reg::udral::physics::kinematics::geodetic::point_state_var_0_1::PointStateVar` (canadensis_data_types/src/generated.rs L1499). -/
def t49 : Entry where
  path := "reg::udral::physics::kinematics::geodetic::point_state_var_0_1::PointStateVar"
  dsdl := "reg.udral.physics.kinematics.geodetic.PointStateVar.0.1"
  role := .message
  definition := ⟨none, false, .struct [.data "position" (.type 48) .scalar, .data "velocity" (.type 31) .scalar]⟩
  code :=
    { shape := .struct true [("position", (.one (.type 48))), ("velocity", (.one (.type 31)))]
      extentBytes := none
      sizeBits := .sum [.lit 480]
      serialize := .seq [.alignedBytes]
      deserialize := .zeroCopy }
  bytes := (60, 60)
  fields := [(true, 288, 288), (true, 192, 192)]

/-- `reg::udral::physics::kinematics::geodetic::point_state_var_ts_0_1::PointStateVarTs` (canadensis_data_types/src/generated.rs L1557). -/
def t50 : Entry where
  path := "reg::udral::physics::kinematics::geodetic::point_state_var_ts_0_1::PointStateVarTs"
  dsdl := "reg.udral.physics.kinematics.geodetic.PointStateVarTs.0.1"
  role := .message
  definition := ⟨none, false, .struct [.data "timestamp" (.type 10) .scalar, .data "value" (.type 49) .scalar]⟩
  code :=
    { shape := .struct false [("timestamp", (.one (.type 10))), ("value", (.one (.type 49)))]
      extentBytes := none
      sizeBits := .sum [.lit 536]
      serialize := .seq [.writeComposite (.self "timestamp"), .writeComposite (.self "value")]
      deserialize := .struct [⟨"timestamp", [], .one .composite⟩, ⟨"value", [], .one .composite⟩] }
  bytes := (67, 67)
  fields := [(true, 56, 56), (true, 480, 480)]

/-- `reg::udral::physics::kinematics::geodetic::pose_0_1::Pose` (canadensis_data_types/src/generated.rs L1670). -/
def t51 : Entry where
  path := "reg::udral::physics::kinematics::geodetic::pose_0_1::Pose"
  dsdl := "reg.udral.physics.kinematics.geodetic.Pose.0.1"
  role := .message
  definition := ⟨none, false, .struct [.data "position" (.type 46) .scalar, .data "orientation" (.type 34) .scalar]⟩
  code :=
    { shape := .struct true [("position", (.one (.type 46))), ("orientation", (.one (.type 34)))]
      extentBytes := none
      sizeBits := .sum [.lit 320]
      serialize := .seq [.alignedBytes]
      deserialize := .zeroCopy }
  bytes := (40, 40)
  fields := [(true, 192, 192), (true, 128, 128)]

/-- `reg::udral::physics::kinematics::geodetic::pose_var_0_1::PoseVar` (canadensis_data_types/src/generated.rs L1733). -/
def t52 : Entry where
  path := "reg::udral::physics::kinematics::geodetic::pose_var_0_1::PoseVar"
  dsdl := "reg.udral.physics.kinematics.geodetic.PoseVar.0.1"
  role := .message
  definition := ⟨none, false, .struct [.data "value" (.type 51) .scalar, .data "covariance_urt" (.prim .float16) (.fixed 21)]⟩
  code :=
    { shape := .struct true [("value", (.one (.type 51))), ("covariance_urt", (.array .f16 21))]
      extentBytes := none
      sizeBits := .sum [.lit 656]
      serialize := .seq [.alignedBytes]
      deserialize := .zeroCopy }
  bytes := (82, 82)
  fields := [(true, 320, 320), (true, 336, 336)]

/-- `reg::udral::physics::kinematics::geodetic::state_0_1::State` (canadensis_data_types/src/generated.rs L1795). -/
def t53 : Entry where
  path := "reg::udral::physics::kinematics::geodetic::state_0_1::State"
  dsdl := "reg.udral.physics.kinematics.geodetic.State.0.1"
  role := .message
  definition := ⟨none, false, .struct [.data "pose" (.type 51) .scalar, .data "twist" (.type 39) .scalar]⟩
  code :=
    { shape := .struct true [("pose", (.one (.type 51))), ("twist", (.one (.type 39)))]
      extentBytes := none
      sizeBits := .sum [.lit 512]
      serialize := .seq [.alignedBytes]
      deserialize := .zeroCopy }
  bytes := (64, 64)
  fields := [(true, 320, 320), (true, 192, 192)]

/-- `reg::udral::physics::kinematics::geodetic::state_var_0_1::StateVar` (canadensis_data_types/src/generated.rs L1858). -/
def t54 : Entry where
  path := "reg::udral::physics::kinematics::geodetic::state_var_0_1::StateVar"
  dsdl := "reg.udral.physics.kinematics.geodetic.StateVar.0.1"
  role := .message
  definition := ⟨none, false, .struct [.data "pose" (.type 52) .scalar, .data "twist" (.type 41) .scalar]⟩
  code :=
    { shape := .struct true [("pose", (.one (.type 52))), ("twist", (.one (.type 41)))]
      extentBytes := none
      sizeBits := .sum [.lit 1184]
      serialize := .seq [.alignedBytes]
      deserialize := .zeroCopy }
  bytes := (148, 148)
  fields := [(true, 656, 656), (true, 528, 528)]

/-- `reg::udral::physics::kinematics::geodetic::state_var_ts_0_1::StateVarTs` (canadensis_data_types/src/generated.rs L1919). -/
def t55 : Entry where
  path := "reg::udral::physics::kinematics::geodetic::state_var_ts_0_1::StateVarTs"
  dsdl := "reg.udral.physics.kinematics.geodetic.StateVarTs.0.1"
  role := .message
  definition := ⟨none, false, .struct [.data "timestamp" (.type 10) .scalar, .data "value" (.type 54) .scalar]⟩
  code :=
    { shape := .struct false [("timestamp", (.one (.type 10))), ("value", (.one (.type 54)))]
      extentBytes := none
      sizeBits := .sum [.lit 1240]
      serialize := .seq [.writeComposite (.self "timestamp"), .writeComposite (.self "value")]
      deserialize := .struct [⟨"timestamp", [], .one .composite⟩, ⟨"value", [], .one .composite⟩] }
  bytes := (155, 155)
  fields := [(true, 56, 56), (true, 1184, 1184)]

/-- `reg::udral::physics::kinematics::rotation::planar_ts_0_1::PlanarTs` (canadensis_data_types/src/generated.rs L2043). -/
def t56 : Entry where
  path := "reg::udral::physics::kinematics::rotation::planar_ts_0_1::PlanarTs"
  dsdl := "reg.udral.physics.kinematics.rotation.PlanarTs.0.1"
  role := .message
  definition := ⟨none, false, .struct [.data "timestamp" (.type 10) .scalar, .data "value" (.type 7) .scalar]⟩
  code :=
    { shape := .struct false [("timestamp", (.one (.type 10))), ("value", (.one (.type 7)))]
      extentBytes := none
      sizeBits := .sum [.lit 152]
      serialize := .seq [.writeComposite (.self "timestamp"), .writeComposite (.self "value")]
      deserialize := .struct [⟨"timestamp", [], .one .composite⟩, ⟨"value", [], .one .composite⟩] }
  bytes := (19, 19)
  fields := [(true, 56, 56), (true, 96, 96)]

/-- `reg::udral::physics::kinematics::translation::linear_ts_0_1::LinearTs` (canadensis_data_types/src/generated.rs L2162). -/
def t57 : Entry where
  path := "reg::udral::physics::kinematics::translation::linear_ts_0_1::LinearTs"
  dsdl := "reg.udral.physics.kinematics.translation.LinearTs.0.1"
  role := .message
  definition := ⟨none, false, .struct [.data "timestamp" (.type 10) .scalar, .data "value" (.type 15) .scalar]⟩
  code :=
    { shape := .struct false [("timestamp", (.one (.type 10))), ("value", (.one (.type 15)))]
      extentBytes := none
      sizeBits := .sum [.lit 152]
      serialize := .seq [.writeComposite (.self "timestamp"), .writeComposite (.self "value")]
      deserialize := .struct [⟨"timestamp", [], .one .composite⟩, ⟨"value", [], .one .composite⟩] }
  bytes := (19, 19)
  fields := [(true, 56, 56), (true, 96, 96)]

/-- `reg::udral::physics::kinematics::translation::linear_var_ts_0_1::LinearVarTs` (canadensis_data_types/src/generated.rs L2213). -/
def t58 : Entry where
  path := "reg::udral::physics::kinematics::translation::linear_var_ts_0_1::LinearVarTs"
  dsdl := "reg.udral.physics.kinematics.translation.LinearVarTs.0.1"
  role := .message
  definition := ⟨none, false, .struct [.data "value" (.type 57) .scalar, .data "position_error_variance" (.prim .float16) .scalar, .data "velocity_error_variance" (.prim .float16) .scalar, .data "acceleration_error_variance" (.prim .float16) .scalar]⟩
  code :=
    { shape := .struct false [("value", (.one (.type 57))), ("position_error_variance", (.one .f16)), ("velocity_error_variance", (.one .f16)), ("acceleration_error_variance", (.one .f16))]
      extentBytes := none
      sizeBits := .sum [.lit 200]
      serialize := .seq [.writeComposite (.self "value"), .writeF16 (.self "position_error_variance"), .writeF16 (.self "velocity_error_variance"), .writeF16 (.self "acceleration_error_variance")]
      deserialize := .struct [⟨"value", [], .one .composite⟩, ⟨"position_error_variance", [], .one .f16⟩, ⟨"velocity_error_variance", [], .one .f16⟩, ⟨"acceleration_error_variance", [], .one .f16⟩] }
  bytes := (25, 25)
  fields := [(true, 152, 152), (true, 16, 16), (true, 16, 16), (true, 16, 16)]

/-- `uavcan::si::sample::velocity::scalar_1_0::Scalar` (canadensis_data_types/src/generated.rs L14713). -/
def t59 : Entry where
  path := "uavcan::si::sample::velocity::scalar_1_0::Scalar"
  dsdl := "uavcan.si.sample.velocity.Scalar.1.0"
  role := .message
  definition := ⟨none, false, .struct [.data "timestamp" (.type 10) .scalar, .data "meter_per_second" (.prim .float32) .scalar]⟩
  code :=
    { shape := .struct false [("timestamp", (.one (.type 10))), ("meter_per_second", (.one .f32))]
      extentBytes := none
      sizeBits := .sum [.lit 88]
      serialize := .seq [.writeComposite (.self "timestamp"), .writeF32 (.self "meter_per_second")]
      deserialize := .struct [⟨"timestamp", [], .one .composite⟩, ⟨"meter_per_second", [], .one .f32⟩] }
  bytes := (11, 11)
  fields := [(true, 56, 56), (true, 32, 32)]

/-- `reg::udral::physics::kinematics::translation::velocity1_var_ts_0_1::Velocity1VarTs` (canadensis_data_types/src/generated.rs L2287). -/
def t60 : Entry where
  path := "reg::udral::physics::kinematics::translation::velocity1_var_ts_0_1::Velocity1VarTs"
  dsdl := "reg.udral.physics.kinematics.translation.Velocity1VarTs.0.1"
  role := .message
  definition := ⟨none, false, .struct [.data "value" (.type 59) .scalar, .data "error_variance" (.prim .float16) .scalar]⟩
  code :=
    { shape := .struct false [("value", (.one (.type 59))), ("error_variance", (.one .f16))]
      extentBytes := none
      sizeBits := .sum [.lit 104]
      serialize := .seq [.writeComposite (.self "value"), .writeF16 (.self "error_variance")]
      deserialize := .struct [⟨"value", [], .one .composite⟩, ⟨"error_variance", [], .one .f16⟩] }
  bytes := (13, 13)
  fields := [(true, 88, 88), (true, 16, 16)]

/-- `uavcan::si::sample::velocity::vector3_1_0::Vector3` (canadensis_data_types/src/generated.rs L14762). -/
def t61 : Entry where
  path := "uavcan::si::sample::velocity::vector3_1_0::Vector3"
  dsdl := "uavcan.si.sample.velocity.Vector3.1.0"
  role := .message
  definition := ⟨none, false, .struct [.data "timestamp" (.type 10) .scalar, .data "meter_per_second" (.prim .float32) (.fixed 3)]⟩
  code :=
    { shape := .struct false [("timestamp", (.one (.type 10))), ("meter_per_second", (.array .f32 3))]
      extentBytes := none
      sizeBits := .sum [.lit 152]
      serialize := .seq [.writeComposite (.self "timestamp"), .forEach (.self "meter_per_second") (.writeF32 .value)]
      deserialize := .struct [⟨"timestamp", [], .one .composite⟩, ⟨"meter_per_second", [], .array (List.replicate 3 .f32)⟩] }
  bytes := (19, 19)
  fields := [(true, 56, 56), (true, 96, 96)]

/-- `reg::udral::physics::kinematics::translation::velocity3_var_0_1::Velocity3Var` (canadensis_data_types/src/generated.rs L2345). -/
def t62 : Entry where
  path := "reg::udral::physics::kinematics::translation::velocity3_var_0_1::Velocity3Var"
  dsdl := "reg.udral.physics.kinematics.translation.Velocity3Var.0.1"
  role := .message
  definition := ⟨none, false, .struct [.data "value" (.type 61) .scalar, .data "covariance_urt" (.prim .float16) (.fixed 6)]⟩
  code :=
    { shape := .struct false [("value", (.one (.type 61))), ("covariance_urt", (.array .f16 6))]
      extentBytes := none
      sizeBits := .sum [.lit 248]
      serialize := .seq [.writeComposite (.self "value"), .forEach (.self "covariance_urt") (.writeF16 .value)]
      deserialize := .struct [⟨"value", [], .one .composite⟩, ⟨"covariance_urt", [], .array (List.replicate 6 .f16)⟩] }
  bytes := (31, 31)
  fields := [(true, 152, 152), (true, 96, 96)]

/-- `reg::udral::physics::optics::high_color_0_1::HighColor` (canadensis_data_types/src/generated.rs L2487). -/
def t63 : Entry where
  path := "reg::udral::physics::optics::high_color_0_1::HighColor"
  dsdl := "reg.udral.physics.optics.HighColor.0.1"
  role := .message
  definition := ⟨none, false, .struct [.data "red" (.prim (.uint 5 true)) .scalar, .data "green" (.prim (.uint 6 true)) .scalar, .data "blue" (.prim (.uint 5 true)) .scalar]⟩
  code :=
    { shape := .struct false [("red", (.one (.unsigned 8))), ("green", (.one (.unsigned 8))), ("blue", (.one (.unsigned 8)))]
      extentBytes := none
      sizeBits := .sum [.lit 16]
      serialize := .seq [.write 5 (.get (.self "red")), .write 6 (.get (.self "green")), .write 5 (.get (.self "blue"))]
      deserialize := .struct [⟨"red", [], .one (.num 5)⟩, ⟨"green", [], .one (.num 6)⟩, ⟨"blue", [], .one (.num 5)⟩] }
  bytes := (2, 2)
  fields := [(true, 5, 5), (false, 6, 6), (false, 5, 5)]

/-- `uavcan::si::unit::pressure::scalar_1_0::Scalar` (canadensis_data_types/src/generated.rs L16725). -/
def t64 : Entry where
  path := "uavcan::si::unit::pressure::scalar_1_0::Scalar"
  dsdl := "uavcan.si.unit.pressure.Scalar.1.0"
  role := .message
  definition := ⟨none, false, .struct [.data "pascal" (.prim .float32) .scalar]⟩
  code :=
    { shape := .struct true [("pascal", (.one .f32))]
      extentBytes := none
      sizeBits := .sum [.lit 32]
      serialize := .seq [.alignedBytes]
      deserialize := .zeroCopy }
  bytes := (4, 4)
  fields := [(true, 32, 32)]

/-- `uavcan::si::unit::temperature::scalar_1_0::Scalar` (canadensis_data_types/src/generated.rs L16774). -/
def t65 : Entry where
  path := "uavcan::si::unit::temperature::scalar_1_0::Scalar"
  dsdl := "uavcan.si.unit.temperature.Scalar.1.0"
  role := .message
  definition := ⟨none, false, .struct [.data "kelvin" (.prim .float32) .scalar]⟩
  code :=
    { shape := .struct true [("kelvin", (.one .f32))]
      extentBytes := none
      sizeBits := .sum [.lit 32]
      serialize := .seq [.alignedBytes]
      deserialize := .zeroCopy }
  bytes := (4, 4)
  fields := [(true, 32, 32)]

/-- `reg::udral::physics::thermodynamics::pressure_temp_var_ts_0_1::PressureTempVarTs` (canadensis_data_types/src/generated.rs L2553). -/
def t66 : Entry where
  path := "reg::udral::physics::thermodynamics::pressure_temp_var_ts_0_1::PressureTempVarTs"
  dsdl := "reg.udral.physics.thermodynamics.PressureTempVarTs.0.1"
  role := .message
  definition := ⟨none, false, .struct [.data "timestamp" (.type 10) .scalar, .data "pressure" (.type 64) .scalar, .data "temperature" (.type 65) .scalar, .data "covariance_urt" (.prim .float16) (.fixed 3)]⟩
  code :=
    { shape := .struct false [("timestamp", (.one (.type 10))), ("pressure", (.one (.type 64))), ("temperature", (.one (.type 65))), ("covariance_urt", (.array .f16 3))]
      extentBytes := none
      sizeBits := .sum [.lit 168]
      serialize := .seq [.writeComposite (.self "timestamp"), .writeComposite (.self "pressure"), .writeComposite (.self "temperature"), .forEach (.self "covariance_urt") (.writeF16 .value)]
      deserialize := .struct [⟨"timestamp", [], .one .composite⟩, ⟨"pressure", [], .one .composite⟩, ⟨"temperature", [], .one .composite⟩, ⟨"covariance_urt", [], .array (List.replicate 3 .f16)⟩] }
  bytes := (21, 21)
  fields := [(true, 56, 56), (true, 32, 32), (true, 32, 32), (true, 48, 48)]

/-- `reg::udral::physics::time::tai64_0_1::TAI64` (canadensis_data_types/src/generated.rs L2632). -/
def t67 : Entry where
  path := "reg::udral::physics::time::tai64_0_1::TAI64"
  dsdl := "reg.udral.physics.time.TAI64.0.1"
  role := .message
  definition := ⟨none, false, .struct [.data "tai64n" (.prim (.int 64)) .scalar]⟩
  code :=
    { shape := .struct true [("tai64n", (.one (.signed 64)))]
      extentBytes := none
      sizeBits := .sum [.lit 64]
      serialize := .seq [.alignedBytes]
      deserialize := .zeroCopy }
  bytes := (8, 8)
  fields := [(true, 64, 64)]

/-- `reg::udral::physics::time::tai64_var_0_1::TAI64Var` (canadensis_data_types/src/generated.rs L2687). -/
def t68 : Entry where
  path := "reg::udral::physics::time::tai64_var_0_1::TAI64Var"
  dsdl := "reg.udral.physics.time.TAI64Var.0.1"
  role := .message
  definition := ⟨none, false, .struct [.data "value" (.type 67) .scalar, .data "error_variance" (.prim .float32) .scalar]⟩
  code :=
    { shape := .struct true [("value", (.one (.type 67))), ("error_variance", (.one .f32))]
      extentBytes := none
      sizeBits := .sum [.lit 96]
      serialize := .seq [.alignedBytes]
      deserialize := .zeroCopy }
  bytes := (12, 12)
  fields := [(true, 64, 64), (true, 32, 32)]

/-- `reg::udral::physics::time::tai64_var_ts_0_1::TAI64VarTs` (canadensis_data_types/src/generated.rs L2745). -/
def t69 : Entry where
  path := "reg::udral::physics::time::tai64_var_ts_0_1::TAI64VarTs"
  dsdl := "reg.udral.physics.time.TAI64VarTs.0.1"
  role := .message
  definition := ⟨none, false, .struct [.data "timestamp" (.type 10) .scalar, .data "value" (.type 68) .scalar]⟩
  code :=
    { shape := .struct false [("timestamp", (.one (.type 10))), ("value", (.one (.type 68)))]
      extentBytes := none
      sizeBits := .sum [.lit 152]
      serialize := .seq [.writeComposite (.self "timestamp"), .writeComposite (.self "value")]
      deserialize := .struct [⟨"timestamp", [], .one .composite⟩, ⟨"value", [], .one .composite⟩] }
  bytes := (19, 19)
  fields := [(true, 56, 56), (true, 96, 96)]

/-- `reg::udral::service::actuator::common::_0_1::_0` (canadensis_data_types/src/generated.rs L2799). -/
def t70 : Entry where
  path := "reg::udral::service::actuator::common::_0_1::_0"
  dsdl := "reg.udral.service.actuator.common._.0.1"
  role := .message
  definition := ⟨(some 0), false, .struct []⟩
  code :=
    { shape := .struct true []
      extentBytes := some 0
      sizeBits := .sum [.lit 0]
      serialize := .seq [.alignedBytes]
      deserialize := .zeroCopy }
  bytes := (0, 0)
  fields := []

/-- `reg::udral::service::actuator::common::fault_flags_0_1::FaultFlags` (canadensis_data_types/src/generated.rs L2856). -/
def t71 : Entry where
  path := "reg::udral::service::actuator::common::fault_flags_0_1::FaultFlags"
  dsdl := "reg.udral.service.actuator.common.FaultFlags.0.1"
  role := .message
  definition := ⟨none, false, .struct [.data "overload" (.prim .boolean) .scalar, .data "voltage" (.prim .boolean) .scalar, .data "motor_temperature" (.prim .boolean) .scalar, .data "controller_temperature" (.prim .boolean) .scalar, .data "velocity" (.prim .boolean) .scalar, .data "mechanical" (.prim .boolean) .scalar, .data "vibration" (.prim .boolean) .scalar, .data "configuration" (.prim .boolean) .scalar, .data "control_mode" (.prim .boolean) .scalar, .padding 6, .data "other" (.prim .boolean) .scalar]⟩
  code :=
    { shape := .struct false [("overload", (.one .bool)), ("voltage", (.one .bool)), ("motor_temperature", (.one .bool)), ("controller_temperature", (.one .bool)), ("velocity", (.one .bool)), ("mechanical", (.one .bool)), ("vibration", (.one .bool)), ("configuration", (.one .bool)), ("control_mode", (.one .bool)), ("other", (.one .bool))]
      extentBytes := none
      sizeBits := .sum [.lit 16]
      serialize := .seq [.writeBool (.self "overload"), .writeBool (.self "voltage"), .writeBool (.self "motor_temperature"), .writeBool (.self "controller_temperature"), .writeBool (.self "velocity"), .writeBool (.self "mechanical"), .writeBool (.self "vibration"), .writeBool (.self "configuration"), .writeBool (.self "control_mode"), .skip 6, .writeBool (.self "other")]
      deserialize := .struct [⟨"overload", [], .one .bool⟩, ⟨"voltage", [], .one .bool⟩, ⟨"motor_temperature", [], .one .bool⟩, ⟨"controller_temperature", [], .one .bool⟩, ⟨"velocity", [], .one .bool⟩, ⟨"mechanical", [], .one .bool⟩, ⟨"vibration", [], .one .bool⟩, ⟨"configuration", [], .one .bool⟩, ⟨"control_mode", [], .one .bool⟩, ⟨"other", [6], .one .bool⟩] }
  bytes := (2, 2)
  fields := [(true, 1, 1), (false, 1, 1), (false, 1, 1), (false, 1, 1), (false, 1, 1), (false, 1, 1), (false, 1, 1), (false, 1, 1), (true, 1, 1), (false, 1, 1)]

/-- `reg::udral::service::common::readiness_0_1::Readiness` (canadensis_data_types/src/generated.rs L4437). -/
def t72 : Entry where
  path := "reg::udral::service::common::readiness_0_1::Readiness"
  dsdl := "reg.udral.service.common.Readiness.0.1"
  role := .message
  definition := ⟨none, false, .struct [.data "value" (.prim (.uint 2 false)) .scalar]⟩
  code :=
    { shape := .struct false [("value", (.one (.unsigned 8)))]
      extentBytes := none
      sizeBits := .sum [.lit 8]
      serialize := .seq [.write 2 (.get (.self "value"))]
      deserialize := .struct [⟨"value", [], .one (.num 2)⟩] }
  bytes := (1, 1)
  fields := [(true, 2, 2)]

/-- `uavcan::node::health_1_0::Health` (canadensis_data_types/src/generated.rs L9109). -/
def t73 : Entry where
  path := "uavcan::node::health_1_0::Health"
  dsdl := "uavcan.node.Health.1.0"
  role := .message
  definition := ⟨none, false, .struct [.data "value" (.prim (.uint 2 true)) .scalar]⟩
  code :=
    { shape := .struct false [("value", (.one (.unsigned 8)))]
      extentBytes := none
      sizeBits := .sum [.lit 8]
      serialize := .seq [.write 2 (.get (.self "value"))]
      deserialize := .struct [⟨"value", [], .one (.num 2)⟩] }
  bytes := (1, 1)
  fields := [(true, 2, 2)]

/-- `reg::udral::service::common::heartbeat_0_1::Heartbeat` (canadensis_data_types/src/generated.rs L4379). -/
def t74 : Entry where
  path := "reg::udral::service::common::heartbeat_0_1::Heartbeat"
  dsdl := "reg.udral.service.common.Heartbeat.0.1"
  role := .message
  definition := ⟨none, false, .struct [.data "readiness" (.type 72) .scalar, .data "health" (.type 73) .scalar]⟩
  code :=
    { shape := .struct false [("readiness", (.one (.type 72))), ("health", (.one (.type 73)))]
      extentBytes := none
      sizeBits := .sum [.lit 16]
      serialize := .seq [.writeComposite (.self "readiness"), .writeComposite (.self "health")]
      deserialize := .struct [⟨"readiness", [], .one .composite⟩, ⟨"health", [], .one .composite⟩] }
  bytes := (2, 2)
  fields := [(true, 8, 8), (true, 8, 8)]

/-- `reg::udral::service::actuator::common::feedback_0_1::Feedback` (canadensis_data_types/src/generated.rs L3016). -/
def t75 : Entry where
  path := "reg::udral::service::actuator::common::feedback_0_1::Feedback"
  dsdl := "reg.udral.service.actuator.common.Feedback.0.1"
  role := .message
  definition := ⟨(some 504), false, .struct [.data "heartbeat" (.type 74) .scalar, .data "demand_factor_pct" (.prim (.int 8)) .scalar]⟩
  code :=
    { shape := .struct false [("heartbeat", (.one (.type 74))), ("demand_factor_pct", (.one (.signed 8)))]
      extentBytes := some 63
      sizeBits := .sum [.lit 24]
      serialize := .seq [.writeComposite (.self "heartbeat"), .writeAligned 8 (.cast (.self "demand_factor_pct") 8)]
      deserialize := .struct [⟨"heartbeat", [], .one .composite⟩, ⟨"demand_factor_pct", [], .one (.num 8)⟩] }
  bytes := (3, 3)
  fields := [(true, 16, 16), (true, 8, 8)]

/-- `reg::udral::service::actuator::common::sp::_0_1::_0` (canadensis_data_types/src/generated.rs L3081). -/
def t76 : Entry where
  path := "reg::udral::service::actuator::common::sp::_0_1::_0"
  dsdl := "reg.udral.service.actuator.common.sp._.0.1"
  role := .message
  definition := ⟨(some 0), false, .struct []⟩
  code :=
    { shape := .struct true []
      extentBytes := some 0
      sizeBits := .sum [.lit 0]
      serialize := .seq [.alignedBytes]
      deserialize := .zeroCopy }
  bytes := (0, 0)
  fields := []

/-- `reg::udral::service::actuator::common::sp::scalar_0_1::Scalar` (canadensis_data_types/src/generated.rs L3137). -/
def t77 : Entry where
  path := "reg::udral::service::actuator::common::sp::scalar_0_1::Scalar"
  dsdl := "reg.udral.service.actuator.common.sp.Scalar.0.1"
  role := .message
  definition := ⟨(some 4096), false, .struct [.data "value" (.prim .float16) .scalar]⟩
  code :=
    { shape := .struct true [("value", (.one .f16))]
      extentBytes := some 512
      sizeBits := .sum [.lit 16]
      serialize := .seq [.alignedBytes]
      deserialize := .zeroCopy }
  bytes := (2, 2)
  fields := [(true, 16, 16)]

/-- `reg::udral::service::actuator::common::sp::vector2_0_1::Vector2` (canadensis_data_types/src/generated.rs L3191). -/
def t78 : Entry where
  path := "reg::udral::service::actuator::common::sp::vector2_0_1::Vector2"
  dsdl := "reg.udral.service.actuator.common.sp.Vector2.0.1"
  role := .message
  definition := ⟨(some 4096), false, .struct [.data "value" (.prim .float16) (.fixed 2)]⟩
  code :=
    { shape := .struct true [("value", (.array .f16 2))]
      extentBytes := some 512
      sizeBits := .sum [.lit 32]
      serialize := .seq [.alignedBytes]
      deserialize := .zeroCopy }
  bytes := (4, 4)
  fields := [(true, 32, 32)]

/-- `reg::udral::service::actuator::common::sp::vector31_0_1::Vector31` (canadensis_data_types/src/generated.rs L3245). -/
def t79 : Entry where
  path := "reg::udral::service::actuator::common::sp::vector31_0_1::Vector31"
  dsdl := "reg.udral.service.actuator.common.sp.Vector31.0.1"
  role := .message
  definition := ⟨(some 4096), false, .struct [.data "value" (.prim .float16) (.fixed 31)]⟩
  code :=
    { shape := .struct true [("value", (.array .f16 31))]
      extentBytes := some 512
      sizeBits := .sum [.lit 496]
      serialize := .seq [.alignedBytes]
      deserialize := .zeroCopy }
  bytes := (62, 62)
  fields := [(true, 496, 496)]

/-- `reg::udral::service::actuator::common::sp::vector3_0_1::Vector3` (canadensis_data_types/src/generated.rs L3299). -/
def t80 : Entry where
  path := "reg::udral::service::actuator::common::sp::vector3_0_1::Vector3"
  dsdl := "reg.udral.service.actuator.common.sp.Vector3.0.1"
  role := .message
  definition := ⟨(some 4096), false, .struct [.data "value" (.prim .float16) (.fixed 3)]⟩
  code :=
    { shape := .struct true [("value", (.array .f16 3))]
      extentBytes := some 512
      sizeBits := .sum [.lit 48]
      serialize := .seq [.alignedBytes]
      deserialize := .zeroCopy }
  bytes := (6, 6)
  fields := [(true, 48, 48)]

/-- `reg::udral::service::actuator::common::sp::vector4_0_1::Vector4` (canadensis_data_types/src/generated.rs L3353). -/
def t81 : Entry where
  path := "reg::udral::service::actuator::common::sp::vector4_0_1::Vector4"
  dsdl := "reg.udral.service.actuator.common.sp.Vector4.0.1"
  role := .message
  definition := ⟨(some 4096), false, .struct [.data "value" (.prim .float16) (.fixed 4)]⟩
  code :=
    { shape := .struct true [("value", (.array .f16 4))]
      extentBytes := some 512
      sizeBits := .sum [.lit 64]
      serialize := .seq [.alignedBytes]
      deserialize := .zeroCopy }
  bytes := (8, 8)
  fields := [(true, 64, 64)]

/-- `reg::udral::service::actuator::common::sp::vector6_0_1::Vector6` (canadensis_data_types/src/generated.rs L3407). -/
def t82 : Entry where
  path := "reg::udral::service::actuator::common::sp::vector6_0_1::Vector6"
  dsdl := "reg.udral.service.actuator.common.sp.Vector6.0.1"
  role := .message
  definition := ⟨(some 4096), false, .struct [.data "value" (.prim .float16) (.fixed 6)]⟩
  code :=
    { shape := .struct true [("value", (.array .f16 6))]
      extentBytes := some 512
      sizeBits := .sum [.lit 96]
      serialize := .seq [.alignedBytes]
      deserialize := .zeroCopy }
  bytes := (12, 12)
  fields := [(true, 96, 96)]

/-- `reg::udral::service::actuator::common::sp::vector8_0_1::Vector8` (canadensis_data_types/src/generated.rs L3461). -/
def t83 : Entry where
  path := "reg::udral::service::actuator::common::sp::vector8_0_1::Vector8"
  dsdl := "reg.udral.service.actuator.common.sp.Vector8.0.1"
  role := .message
  definition := ⟨(some 4096), false, .struct [.data "value" (.prim .float16) (.fixed 8)]⟩
  code :=
    { shape := .struct true [("value", (.array .f16 8))]
      extentBytes := some 512
      sizeBits := .sum [.lit 128]
      serialize := .seq [.alignedBytes]
      deserialize := .zeroCopy }
  bytes := (16, 16)
  fields := [(true, 128, 128)]

/-- `reg::udral::service::actuator::common::status_0_1::Status` (canadensis_data_types/src/generated.rs L3516). -/
def t84 : Entry where
  path := "reg::udral::service::actuator::common::status_0_1::Status"
  dsdl := "reg.udral.service.actuator.common.Status.0.1"
  role := .message
  definition := ⟨(some 504), false, .struct [.data "motor_temperature" (.type 65) .scalar, .data "controller_temperature" (.type 65) .scalar, .data "error_count" (.prim (.uint 32 true)) .scalar, .data "fault_flags" (.type 71) .scalar]⟩
  code :=
    { shape := .struct false [("motor_temperature", (.one (.type 65))), ("controller_temperature", (.one (.type 65))), ("error_count", (.one (.unsigned 32))), ("fault_flags", (.one (.type 71)))]
      extentBytes := some 63
      sizeBits := .sum [.lit 112]
      serialize := .seq [.writeComposite (.self "motor_temperature"), .writeComposite (.self "controller_temperature"), .writeAligned 32 (.get (.self "error_count")), .writeComposite (.self "fault_flags")]
      deserialize := .struct [⟨"motor_temperature", [], .one .composite⟩, ⟨"controller_temperature", [], .one .composite⟩, ⟨"error_count", [], .one (.num 32)⟩, ⟨"fault_flags", [], .one .composite⟩] }
  bytes := (14, 14)
  fields := [(true, 32, 32), (true, 32, 32), (true, 32, 32), (true, 16, 16)]

/-- `reg::udral::service::actuator::esc::_0_1::_0` (canadensis_data_types/src/generated.rs L3592). -/
def t85 : Entry where
  path := "reg::udral::service::actuator::esc::_0_1::_0"
  dsdl := "reg.udral.service.actuator.esc._.0.1"
  role := .message
  definition := ⟨(some 0), false, .struct []⟩
  code :=
    { shape := .struct true []
      extentBytes := some 0
      sizeBits := .sum [.lit 0]
      serialize := .seq [.alignedBytes]
      deserialize := .zeroCopy }
  bytes := (0, 0)
  fields := []

/-- `reg::udral::service::actuator::servo::_0_1::_0` (canadensis_data_types/src/generated.rs L3640). -/
def t86 : Entry where
  path := "reg::udral::service::actuator::servo::_0_1::_0"
  dsdl := "reg.udral.service.actuator.servo._.0.1"
  role := .message
  definition := ⟨(some 0), false, .struct []⟩
  code :=
    { shape := .struct true []
      extentBytes := some 0
      sizeBits := .sum [.lit 0]
      serialize := .seq [.alignedBytes]
      deserialize := .zeroCopy }
  bytes := (0, 0)
  fields := []

/-- `reg::udral::service::battery::_0_1::_0` (canadensis_data_types/src/generated.rs L3689). -/
def t87 : Entry where
  path := "reg::udral::service::battery::_0_1::_0"
  dsdl := "reg.udral.service.battery._.0.1"
  role := .message
  definition := ⟨(some 0), false, .struct []⟩
  code :=
    { shape := .struct true []
      extentBytes := some 0
      sizeBits := .sum [.lit 0]
      serialize := .seq [.alignedBytes]
      deserialize := .zeroCopy }
  bytes := (0, 0)
  fields := []

/-- `reg::udral::service::battery::error_0_1::Error` (canadensis_data_types/src/generated.rs L3732). -/
def t88 : Entry where
  path := "reg::udral::service::battery::error_0_1::Error"
  dsdl := "reg.udral.service.battery.Error.0.1"
  role := .message
  definition := ⟨none, false, .struct [.data "value" (.prim (.uint 8 true)) .scalar]⟩
  code :=
    { shape := .struct true [("value", (.one (.unsigned 8)))]
      extentBytes := none
      sizeBits := .sum [.lit 8]
      serialize := .seq [.alignedBytes]
      deserialize := .zeroCopy }
  bytes := (1, 1)
  fields := [(true, 8, 8)]

/-- `uavcan::si::unit::mass::scalar_1_0::Scalar` (canadensis_data_types/src/generated.rs L16627). -/
def t89 : Entry where
  path := "uavcan::si::unit::mass::scalar_1_0::Scalar"
  dsdl := "uavcan.si.unit.mass.Scalar.1.0"
  role := .message
  definition := ⟨none, false, .struct [.data "kilogram" (.prim .float32) .scalar]⟩
  code :=
    { shape := .struct true [("kilogram", (.one .f32))]
      extentBytes := none
      sizeBits := .sum [.lit 32]
      serialize := .seq [.alignedBytes]
      deserialize := .zeroCopy }
  bytes := (4, 4)
  fields := [(true, 32, 32)]

/-- `uavcan::si::unit::electric_charge::scalar_1_0::Scalar` (canadensis_data_types/src/generated.rs L15699). -/
def t90 : Entry where
  path := "uavcan::si::unit::electric_charge::scalar_1_0::Scalar"
  dsdl := "uavcan.si.unit.electric_charge.Scalar.1.0"
  role := .message
  definition := ⟨none, false, .struct [.data "coulomb" (.prim .float32) .scalar]⟩
  code :=
    { shape := .struct true [("coulomb", (.one .f32))]
      extentBytes := none
      sizeBits := .sum [.lit 32]
      serialize := .seq [.alignedBytes]
      deserialize := .zeroCopy }
  bytes := (4, 4)
  fields := [(true, 32, 32)]

/-- `reg::udral::service::battery::technology_0_1::Technology` (canadensis_data_types/src/generated.rs L4250). -/
def t91 : Entry where
  path := "reg::udral::service::battery::technology_0_1::Technology"
  dsdl := "reg.udral.service.battery.Technology.0.1"
  role := .message
  definition := ⟨none, false, .struct [.data "value" (.prim (.uint 8 true)) .scalar]⟩
  code :=
    { shape := .struct true [("value", (.one (.unsigned 8)))]
      extentBytes := none
      sizeBits := .sum [.lit 8]
      serialize := .seq [.alignedBytes]
      deserialize := .zeroCopy }
  bytes := (1, 1)
  fields := [(true, 8, 8)]

/-- `reg::udral::service::battery::parameters_0_3::Parameters` (canadensis_data_types/src/generated.rs L3833). -/
def t92 : Entry where
  path := "reg::udral::service::battery::parameters_0_3::Parameters"
  dsdl := "reg.udral.service.battery.Parameters.0.3"
  role := .message
  definition := ⟨(some 2400), false, .struct [.data "unique_id" (.prim (.uint 64 false)) .scalar, .data "mass" (.type 89) .scalar, .data "design_capacity" (.type 90) .scalar, .data "design_cell_voltage_min_max" (.type 20) (.fixed 2), .data "discharge_current" (.type 19) .scalar, .data "discharge_current_burst" (.type 19) .scalar, .data "charge_current" (.type 19) .scalar, .data "charge_current_fast" (.type 19) .scalar, .data "charge_termination_threshold" (.type 19) .scalar, .data "charge_voltage" (.type 20) .scalar, .data "cycle_count" (.prim (.uint 16 true)) .scalar, .padding 8, .data "series_cell_count" (.prim (.uint 8 true)) .scalar, .data "state_of_health_pct" (.prim (.uint 7 true)) .scalar, .padding 1, .data "technology" (.type 91) .scalar, .data "nominal_voltage" (.type 20) .scalar, .data "unix_manufacture_time" (.prim (.uint 40 false)) .scalar, .data "name" (.prim (.uint 8 true)) (.var 64)]⟩
  code :=
    { shape := .struct false [("unique_id", (.one (.unsigned 64))), ("mass", (.one (.type 89))), ("design_capacity", (.one (.type 90))), ("design_cell_voltage_min_max", (.array (.type 20) 2)), ("discharge_current", (.one (.type 19))), ("discharge_current_burst", (.one (.type 19))), ("charge_current", (.one (.type 19))), ("charge_current_fast", (.one (.type 19))), ("charge_termination_threshold", (.one (.type 19))), ("charge_voltage", (.one (.type 20))), ("cycle_count", (.one (.unsigned 16))), ("series_cell_count", (.one (.unsigned 8))), ("state_of_health_pct", (.one (.unsigned 8))), ("technology", (.one (.type 91))), ("nominal_voltage", (.one (.type 20))), ("unix_manufacture_time", (.one (.unsigned 64))), ("name", (.vec (.unsigned 8) 64))]
      extentBytes := some 300
      sizeBits := .sum [.lit 64, .lit 32, .lit 32, .lenTimes (.self "design_cell_voltage_min_max") 32 8, .lit 32, .lit 32, .lit 32, .lit 32, .lit 32, .lit 32, .lit 16, .lit 8, .lit 8, .lit 7, .lit 1, .lit 8, .lit 32, .lit 40, .lit 8, .lenTimes (.self "name") 8 1, .lit 0]
      serialize := .seq [.writeAligned 64 (.get (.self "unique_id")), .writeComposite (.self "mass"), .writeComposite (.self "design_capacity"), .forEach (.self "design_cell_voltage_min_max") (.writeComposite .value), .writeComposite (.self "discharge_current"), .writeComposite (.self "discharge_current_burst"), .writeComposite (.self "charge_current"), .writeComposite (.self "charge_current_fast"), .writeComposite (.self "charge_termination_threshold"), .writeComposite (.self "charge_voltage"), .writeAligned 16 (.get (.self "cycle_count")), .skip 8, .writeAligned 8 (.get (.self "series_cell_count")), .write 7 (.get (.self "state_of_health_pct")), .skip 1, .writeComposite (.self "technology"), .writeComposite (.self "nominal_voltage"), .write 40 (.get (.self "unix_manufacture_time")), .writeAligned 8 (.len (.self "name") 8), .writeBytes (.self "name")]
      deserialize := .struct [⟨"unique_id", [], .one (.num 64)⟩, ⟨"mass", [], .one .composite⟩, ⟨"design_capacity", [], .one .composite⟩, ⟨"design_cell_voltage_min_max", [], .array [.composite, .composite]⟩, ⟨"discharge_current", [], .one .composite⟩, ⟨"discharge_current_burst", [], .one .composite⟩, ⟨"charge_current", [], .one .composite⟩, ⟨"charge_current_fast", [], .one .composite⟩, ⟨"charge_termination_threshold", [], .one .composite⟩, ⟨"charge_voltage", [], .one .composite⟩, ⟨"cycle_count", [], .one (.num 16)⟩, ⟨"series_cell_count", [8], .one (.num 8)⟩, ⟨"state_of_health_pct", [], .one (.num 7)⟩, ⟨"technology", [1], .one .composite⟩, ⟨"nominal_voltage", [], .one .composite⟩, ⟨"unix_manufacture_time", [], .one (.num 40)⟩, ⟨"name", [], .vec 8 64 (.num 8)⟩] }
  bytes := (64, 128)
  fields := [(true, 64, 64), (true, 32, 32), (true, 32, 32), (true, 64, 64), (true, 32, 32), (true, 32, 32), (true, 32, 32), (true, 32, 32), (true, 32, 32), (true, 32, 32), (true, 16, 16), (true, 8, 8), (true, 7, 7), (true, 8, 8), (true, 32, 32), (true, 40, 40), (true, 0, 512)]

/-- `reg::udral::service::battery::status_0_2::Status` (canadensis_data_types/src/generated.rs L4129). -/
def t93 : Entry where
  path := "reg::udral::service::battery::status_0_2::Status"
  dsdl := "reg.udral.service.battery.Status.0.2"
  role := .message
  definition := ⟨(some 4800), false, .struct [.data "heartbeat" (.type 74) .scalar, .data "temperature_min_max" (.type 65) (.fixed 2), .data "available_charge" (.type 90) .scalar, .data "error" (.type 88) .scalar, .data "cell_voltages" (.prim .float16) (.var 255)]⟩
  code :=
    { shape := .struct false [("heartbeat", (.one (.type 74))), ("temperature_min_max", (.array (.type 65) 2)), ("available_charge", (.one (.type 90))), ("error", (.one (.type 88))), ("cell_voltages", (.vec .f16 255))]
      extentBytes := some 600
      sizeBits := .sum [.lit 16, .lenTimes (.self "temperature_min_max") 32 8, .lit 32, .lit 8, .lit 8, .lenTimes (.self "cell_voltages") 16 1, .lit 0]
      serialize := .seq [.writeComposite (.self "heartbeat"), .forEach (.self "temperature_min_max") (.writeComposite .value), .writeComposite (.self "available_charge"), .writeComposite (.self "error"), .writeAligned 8 (.len (.self "cell_voltages") 8), .forEach (.self "cell_voltages") (.writeF16 .value)]
      deserialize := .struct [⟨"heartbeat", [], .one .composite⟩, ⟨"temperature_min_max", [], .array [.composite, .composite]⟩, ⟨"available_charge", [], .one .composite⟩, ⟨"error", [], .one .composite⟩, ⟨"cell_voltages", [], .vec 8 255 .f16⟩] }
  bytes := (16, 526)
  fields := [(true, 16, 16), (true, 64, 64), (true, 32, 32), (true, 8, 8), (true, 0, 4080)]

/-- `reg::udral::service::sensor::status_0_1::Status` (canadensis_data_types/src/generated.rs L4499). -/
def t94 : Entry where
  path := "reg::udral::service::sensor::status_0_1::Status"
  dsdl := "reg.udral.service.sensor.Status.0.1"
  role := .message
  definition := ⟨(some 504), false, .struct [.data "data_validity_period" (.type 1) .scalar, .data "error_count" (.prim (.uint 32 true)) .scalar, .data "sensor_temperature" (.type 65) .scalar]⟩
  code :=
    { shape := .struct true [("data_validity_period", (.one (.type 1))), ("error_count", (.one (.unsigned 32))), ("sensor_temperature", (.one (.type 65)))]
      extentBytes := some 63
      sizeBits := .sum [.lit 96]
      serialize := .seq [.alignedBytes]
      deserialize := .zeroCopy }
  bytes := (12, 12)
  fields := [(true, 32, 32), (true, 32, 32), (true, 32, 32)]

/-- `uavcan::diagnostic::severity_1_0::Severity` (canadensis_data_types/src/generated.rs L4763). -/
def t95 : Entry where
  path := "uavcan::diagnostic::severity_1_0::Severity"
  dsdl := "uavcan.diagnostic.Severity.1.0"
  role := .message
  definition := ⟨none, false, .struct [.data "value" (.prim (.uint 3 true)) .scalar]⟩
  code :=
    { shape := .struct false [("value", (.one (.unsigned 8)))]
      extentBytes := none
      sizeBits := .sum [.lit 8]
      serialize := .seq [.write 3 (.get (.self "value"))]
      deserialize := .struct [⟨"value", [], .one (.num 3)⟩] }
  bytes := (1, 1)
  fields := [(true, 3, 3)]

/-- `uavcan::diagnostic::record_1_0::Record` (canadensis_data_types/src/generated.rs L4596). -/
def t96 : Entry where
  path := "uavcan::diagnostic::record_1_0::Record"
  dsdl := "uavcan.diagnostic.Record.1.0"
  role := .message
  definition := ⟨(some 2400), false, .struct [.data "timestamp" (.type 10) .scalar, .data "severity" (.type 95) .scalar, .data "text" (.prim (.uint 8 true)) (.var 112)]⟩
  code :=
    { shape := .struct false [("timestamp", (.one (.type 10))), ("severity", (.one (.type 95))), ("text", (.vec (.unsigned 8) 112))]
      extentBytes := some 300
      sizeBits := .sum [.lit 56, .lit 8, .lit 8, .lenTimes (.self "text") 8 1, .lit 0]
      serialize := .seq [.writeComposite (.self "timestamp"), .writeComposite (.self "severity"), .writeAligned 8 (.len (.self "text") 8), .writeBytes (.self "text")]
      deserialize := .struct [⟨"timestamp", [], .one .composite⟩, ⟨"severity", [], .one .composite⟩, ⟨"text", [], .vec 8 112 (.num 8)⟩] }
  bytes := (9, 121)
  fields := [(true, 56, 56), (true, 8, 8), (true, 0, 896)]

/-- `uavcan::diagnostic::record_1_1::Record` (canadensis_data_types/src/generated.rs L4682). -/
def t97 : Entry where
  path := "uavcan::diagnostic::record_1_1::Record"
  dsdl := "uavcan.diagnostic.Record.1.1"
  role := .message
  definition := ⟨(some 2400), false, .struct [.data "timestamp" (.type 10) .scalar, .data "severity" (.type 95) .scalar, .data "text" (.prim (.uint 8 true)) (.var 255)]⟩
  code :=
    { shape := .struct false [("timestamp", (.one (.type 10))), ("severity", (.one (.type 95))), ("text", (.vec (.unsigned 8) 255))]
      extentBytes := some 300
      sizeBits := .sum [.lit 56, .lit 8, .lit 8, .lenTimes (.self "text") 8 1, .lit 0]
      serialize := .seq [.writeComposite (.self "timestamp"), .writeComposite (.self "severity"), .writeAligned 8 (.len (.self "text") 8), .writeBytes (.self "text")]
      deserialize := .struct [⟨"timestamp", [], .one .composite⟩, ⟨"severity", [], .one .composite⟩, ⟨"text", [], .vec 8 255 (.num 8)⟩] }
  bytes := (9, 264)
  fields := [(true, 56, 56), (true, 8, 8), (true, 0, 2040)]

/-- `uavcan::file::error_1_0::Error` (canadensis_data_types/src/generated.rs L4851). -/
def t98 : Entry where
  path := "uavcan::file::error_1_0::Error"
  dsdl := "uavcan.file.Error.1.0"
  role := .message
  definition := ⟨none, false, .struct [.data "value" (.prim (.uint 16 true)) .scalar]⟩
  code :=
    { shape := .struct true [("value", (.one (.unsigned 16)))]
      extentBytes := none
      sizeBits := .sum [.lit 16]
      serialize := .seq [.alignedBytes]
      deserialize := .zeroCopy }
  bytes := (2, 2)
  fields := [(true, 16, 16)]

/-- `uavcan::file::path_1_0::Path` (canadensis_data_types/src/generated.rs L5738). -/
def t99 : Entry where
  path := "uavcan::file::path_1_0::Path"
  dsdl := "uavcan.file.Path.1.0"
  role := .message
  definition := ⟨none, false, .struct [.data "path" (.prim (.uint 8 true)) (.var 112)]⟩
  code :=
    { shape := .struct false [("path", (.vec (.unsigned 8) 112))]
      extentBytes := none
      sizeBits := .sum [.lit 8, .lenTimes (.self "path") 8 1, .lit 0]
      serialize := .seq [.writeAligned 8 (.len (.self "path") 8), .writeBytes (.self "path")]
      deserialize := .struct [⟨"path", [], .vec 8 112 (.num 8)⟩] }
  bytes := (1, 113)
  fields := [(true, 0, 896)]

/-- `uavcan::file::get_info_0_1::GetInfoRequest` (canadensis_data_types/src/generated.rs L4926). -/
def t100 : Entry where
  path := "uavcan::file::get_info_0_1::GetInfoRequest"
  dsdl := "uavcan.file.GetInfo.0.1"
  role := .request
  definition := ⟨(some 2400), true, .struct [.data "path" (.type 99) .scalar]⟩
  code :=
    { shape := .struct false [("path", (.one (.type 99)))]
      extentBytes := some 300
      sizeBits := .sum [.sizeOf (.self "path") 8, .lit 0]
      serialize := .seq [.writeComposite (.self "path")]
      deserialize := .struct [⟨"path", [], .one .composite⟩] }
  bytes := (1, 113)
  fields := [(true, 8, 904)]

/-- `uavcan::file::get_info_0_1::GetInfoResponse` (canadensis_data_types/src/generated.rs L4970). -/
def t101 : Entry where
  path := "uavcan::file::get_info_0_1::GetInfoResponse"
  dsdl := "uavcan.file.GetInfo.0.1"
  role := .response
  definition := ⟨(some 384), false, .struct [.data "error" (.type 98) .scalar, .data "size" (.prim (.uint 40 false)) .scalar, .data "unix_timestamp_of_last_modification" (.prim (.uint 40 false)) .scalar, .data "is_file_not_directory" (.prim .boolean) .scalar, .data "is_link" (.prim .boolean) .scalar, .data "is_readable" (.prim .boolean) .scalar, .data "is_writeable" (.prim .boolean) .scalar, .padding 4]⟩
  code :=
    { shape := .struct false [("error", (.one (.type 98))), ("size", (.one (.unsigned 64))), ("unix_timestamp_of_last_modification", (.one (.unsigned 64))), ("is_file_not_directory", (.one .bool)), ("is_link", (.one .bool)), ("is_readable", (.one .bool)), ("is_writeable", (.one .bool))]
      extentBytes := some 48
      sizeBits := .sum [.lit 104]
      serialize := .seq [.writeComposite (.self "error"), .write 40 (.get (.self "size")), .write 40 (.get (.self "unix_timestamp_of_last_modification")), .writeBool (.self "is_file_not_directory"), .writeBool (.self "is_link"), .writeBool (.self "is_readable"), .writeBool (.self "is_writeable"), .skip 4]
      deserialize := .struct [⟨"error", [], .one .composite⟩, ⟨"size", [], .one (.num 40)⟩, ⟨"unix_timestamp_of_last_modification", [], .one (.num 40)⟩, ⟨"is_file_not_directory", [], .one .bool⟩, ⟨"is_link", [], .one .bool⟩, ⟨"is_readable", [], .one .bool⟩, ⟨"is_writeable", [], .one .bool⟩] }
  bytes := (13, 13)
  fields := [(true, 16, 16), (true, 40, 40), (true, 40, 40), (true, 1, 1), (false, 1, 1), (false, 1, 1), (false, 1, 1)]

/-- `uavcan::file::path_2_0::Path` (canadensis_data_types/src/generated.rs L5798). -/
def t102 : Entry where
  path := "uavcan::file::path_2_0::Path"
  dsdl := "uavcan.file.Path.2.0"
  role := .message
  definition := ⟨none, false, .struct [.data "path" (.prim (.uint 8 true)) (.var 255)]⟩
  code :=
    { shape := .struct false [("path", (.vec (.unsigned 8) 255))]
      extentBytes := none
      sizeBits := .sum [.lit 8, .lenTimes (.self "path") 8 1, .lit 0]
      serialize := .seq [.writeAligned 8 (.len (.self "path") 8), .writeBytes (.self "path")]
      deserialize := .struct [⟨"path", [], .vec 8 255 (.num 8)⟩] }
  bytes := (1, 256)
  fields := [(true, 0, 2040)]

/-- `uavcan::file::get_info_0_2::GetInfoRequest` (canadensis_data_types/src/generated.rs L5087). -/
def t103 : Entry where
  path := "uavcan::file::get_info_0_2::GetInfoRequest"
  dsdl := "uavcan.file.GetInfo.0.2"
  role := .request
  definition := ⟨(some 2400), true, .struct [.data "path" (.type 102) .scalar]⟩
  code :=
    { shape := .struct false [("path", (.one (.type 102)))]
      extentBytes := some 300
      sizeBits := .sum [.sizeOf (.self "path") 8, .lit 0]
      serialize := .seq [.writeComposite (.self "path")]
      deserialize := .struct [⟨"path", [], .one .composite⟩] }
  bytes := (1, 256)
  fields := [(true, 8, 2048)]

/-- `uavcan::file::get_info_0_2::GetInfoResponse` (canadensis_data_types/src/generated.rs L5130). -/
def t104 : Entry where
  path := "uavcan::file::get_info_0_2::GetInfoResponse"
  dsdl := "uavcan.file.GetInfo.0.2"
  role := .response
  definition := ⟨(some 384), false, .struct [.data "error" (.type 98) .scalar, .data "size" (.prim (.uint 40 false)) .scalar, .data "unix_timestamp_of_last_modification" (.prim (.uint 40 false)) .scalar, .data "is_file_not_directory" (.prim .boolean) .scalar, .data "is_link" (.prim .boolean) .scalar, .data "is_readable" (.prim .boolean) .scalar, .data "is_writeable" (.prim .boolean) .scalar, .padding 4]⟩
  code :=
    { shape := .struct false [("error", (.one (.type 98))), ("size", (.one (.unsigned 64))), ("unix_timestamp_of_last_modification", (.one (.unsigned 64))), ("is_file_not_directory", (.one .bool)), ("is_link", (.one .bool)), ("is_readable", (.one .bool)), ("is_writeable", (.one .bool))]
      extentBytes := some 48
      sizeBits := .sum [.lit 104]
      serialize := .seq [.writeComposite (.self "error"), .write 40 (.get (.self "size")), .write 40 (.get (.self "unix_timestamp_of_last_modification")), .writeBool (.self "is_file_not_directory"), .writeBool (.self "is_link"), .writeBool (.self "is_readable"), .writeBool (.self "is_writeable"), .skip 4]
      deserialize := .struct [⟨"error", [], .one .composite⟩, ⟨"size", [], .one (.num 40)⟩, ⟨"unix_timestamp_of_last_modification", [], .one (.num 40)⟩, ⟨"is_file_not_directory", [], .one .bool⟩, ⟨"is_link", [], .one .bool⟩, ⟨"is_readable", [], .one .bool⟩, ⟨"is_writeable", [], .one .bool⟩] }
  bytes := (13, 13)
  fields := [(true, 16, 16), (true, 40, 40), (true, 40, 40), (true, 1, 1), (false, 1, 1), (false, 1, 1), (false, 1, 1)]

/-- `uavcan::file::list_0_1::ListRequest` (canadensis_data_types/src/generated.rs L5249). -/
def t105 : Entry where
  path := "uavcan::file::list_0_1::ListRequest"
  dsdl := "uavcan.file.List.0.1"
  role := .request
  definition := ⟨(some 2400), true, .struct [.data "entry_index" (.prim (.uint 32 true)) .scalar, .padding 32, .data "directory_path" (.type 99) .scalar]⟩
  code :=
    { shape := .struct false [("entry_index", (.one (.unsigned 32))), ("directory_path", (.one (.type 99)))]
      extentBytes := some 300
      sizeBits := .sum [.lit 32, .lit 32, .sizeOf (.self "directory_path") 8, .lit 0]
      serialize := .seq [.writeAligned 32 (.get (.self "entry_index")), .skip 32, .writeComposite (.self "directory_path")]
      deserialize := .struct [⟨"entry_index", [], .one (.num 32)⟩, ⟨"directory_path", [32], .one .composite⟩] }
  bytes := (9, 121)
  fields := [(true, 32, 32), (true, 8, 904)]

/-- `uavcan::file::list_0_1::ListResponse` (canadensis_data_types/src/generated.rs L5306). -/
def t106 : Entry where
  path := "uavcan::file::list_0_1::ListResponse"
  dsdl := "uavcan.file.List.0.1"
  role := .response
  definition := ⟨(some 2400), false, .struct [.padding 32, .data "entry_base_name" (.type 99) .scalar]⟩
  code :=
    { shape := .struct false [("entry_base_name", (.one (.type 99)))]
      extentBytes := some 300
      sizeBits := .sum [.lit 32, .sizeOf (.self "entry_base_name") 8, .lit 0]
      serialize := .seq [.skip 32, .writeComposite (.self "entry_base_name")]
      deserialize := .struct [⟨"entry_base_name", [32], .one .composite⟩] }
  bytes := (5, 117)
  fields := [(true, 8, 904)]

/-- `uavcan::file::list_0_2::ListRequest` (canadensis_data_types/src/generated.rs L5360). -/
def t107 : Entry where
  path := "uavcan::file::list_0_2::ListRequest"
  dsdl := "uavcan.file.List.0.2"
  role := .request
  definition := ⟨(some 2400), true, .struct [.data "entry_index" (.prim (.uint 32 true)) .scalar, .padding 32, .data "directory_path" (.type 102) .scalar]⟩
  code :=
    { shape := .struct false [("entry_index", (.one (.unsigned 32))), ("directory_path", (.one (.type 102)))]
      extentBytes := some 300
      sizeBits := .sum [.lit 32, .lit 32, .sizeOf (.self "directory_path") 8, .lit 0]
      serialize := .seq [.writeAligned 32 (.get (.self "entry_index")), .skip 32, .writeComposite (.self "directory_path")]
      deserialize := .struct [⟨"entry_index", [], .one (.num 32)⟩, ⟨"directory_path", [32], .one .composite⟩] }
  bytes := (9, 264)
  fields := [(true, 32, 32), (true, 8, 2048)]

/-- `uavcan::file::list_0_2::ListResponse` (canadensis_data_types/src/generated.rs L5416). -/
def t108 : Entry where
  path := "uavcan::file::list_0_2::ListResponse"
  dsdl := "uavcan.file.List.0.2"
  role := .response
  definition := ⟨(some 2400), false, .struct [.padding 32, .data "entry_base_name" (.type 102) .scalar]⟩
  code :=
    { shape := .struct false [("entry_base_name", (.one (.type 102)))]
      extentBytes := some 300
      sizeBits := .sum [.lit 32, .sizeOf (.self "entry_base_name") 8, .lit 0]
      serialize := .seq [.skip 32, .writeComposite (.self "entry_base_name")]
      deserialize := .struct [⟨"entry_base_name", [32], .one .composite⟩] }
  bytes := (5, 260)
  fields := [(true, 8, 2048)]

/-- `uavcan::file::modify_1_0::ModifyRequest` (canadensis_data_types/src/generated.rs L5472). -/
def t109 : Entry where
  path := "uavcan::file::modify_1_0::ModifyRequest"
  dsdl := "uavcan.file.Modify.1.0"
  role := .request
  definition := ⟨(some 4800), true, .struct [.data "preserve_source" (.prim .boolean) .scalar, .data "overwrite_destination" (.prim .boolean) .scalar, .padding 30, .data "source" (.type 99) .scalar, .data "destination" (.type 99) .scalar]⟩
  code :=
    { shape := .struct false [("preserve_source", (.one .bool)), ("overwrite_destination", (.one .bool)), ("source", (.one (.type 99))), ("destination", (.one (.type 99)))]
      extentBytes := some 600
      sizeBits := .sum [.lit 1, .lit 1, .lit 30, .sizeOf (.self "source") 8, .sizeOf (.self "destination") 8, .lit 0]
      serialize := .seq [.writeBool (.self "preserve_source"), .writeBool (.self "overwrite_destination"), .skip 30, .writeComposite (.self "source"), .writeComposite (.self "destination")]
      deserialize := .struct [⟨"preserve_source", [], .one .bool⟩, ⟨"overwrite_destination", [], .one .bool⟩, ⟨"source", [30], .one .composite⟩, ⟨"destination", [], .one .composite⟩] }
  bytes := (6, 230)
  fields := [(true, 1, 1), (false, 1, 1), (true, 8, 904), (true, 8, 904)]

/-- `uavcan::file::modify_1_0::ModifyResponse` (canadensis_data_types/src/generated.rs L5557). -/
def t110 : Entry where
  path := "uavcan::file::modify_1_0::ModifyResponse"
  dsdl := "uavcan.file.Modify.1.0"
  role := .response
  definition := ⟨(some 384), false, .struct [.data "error" (.type 98) .scalar]⟩
  code :=
    { shape := .struct true [("error", (.one (.type 98)))]
      extentBytes := some 48
      sizeBits := .sum [.lit 16]
      serialize := .seq [.alignedBytes]
      deserialize := .zeroCopy }
  bytes := (2, 2)
  fields := [(true, 16, 16)]

/-- `uavcan::file::modify_1_1::ModifyRequest` (canadensis_data_types/src/generated.rs L5607). -/
def t111 : Entry where
  path := "uavcan::file::modify_1_1::ModifyRequest"
  dsdl := "uavcan.file.Modify.1.1"
  role := .request
  definition := ⟨(some 4800), true, .struct [.data "preserve_source" (.prim .boolean) .scalar, .data "overwrite_destination" (.prim .boolean) .scalar, .padding 30, .data "source" (.type 102) .scalar, .data "destination" (.type 102) .scalar]⟩
  code :=
    { shape := .struct false [("preserve_source", (.one .bool)), ("overwrite_destination", (.one .bool)), ("source", (.one (.type 102))), ("destination", (.one (.type 102)))]
      extentBytes := some 600
      sizeBits := .sum [.lit 1, .lit 1, .lit 30, .sizeOf (.self "source") 8, .sizeOf (.self "destination") 8, .lit 0]
      serialize := .seq [.writeBool (.self "preserve_source"), .writeBool (.self "overwrite_destination"), .skip 30, .writeComposite (.self "source"), .writeComposite (.self "destination")]
      deserialize := .struct [⟨"preserve_source", [], .one .bool⟩, ⟨"overwrite_destination", [], .one .bool⟩, ⟨"source", [30], .one .composite⟩, ⟨"destination", [], .one .composite⟩] }
  bytes := (6, 516)
  fields := [(true, 1, 1), (false, 1, 1), (true, 8, 2048), (true, 8, 2048)]

/-- `uavcan::file::modify_1_1::ModifyResponse` (canadensis_data_types/src/generated.rs L5691). -/
def t112 : Entry where
  path := "uavcan::file::modify_1_1::ModifyResponse"
  dsdl := "uavcan.file.Modify.1.1"
  role := .response
  definition := ⟨(some 384), false, .struct [.data "error" (.type 98) .scalar]⟩
  code :=
    { shape := .struct true [("error", (.one (.type 98)))]
      extentBytes := some 48
      sizeBits := .sum [.lit 16]
      serialize := .seq [.alignedBytes]
      deserialize := .zeroCopy }
  bytes := (2, 2)
  fields := [(true, 16, 16)]

/-- `uavcan::file::read_1_0::ReadRequest` (canadensis_data_types/src/generated.rs L5864). -/
def t113 : Entry where
  path := "uavcan::file::read_1_0::ReadRequest"
  dsdl := "uavcan.file.Read.1.0"
  role := .request
  definition := ⟨(some 2400), true, .struct [.data "offset" (.prim (.uint 40 false)) .scalar, .data "path" (.type 99) .scalar]⟩
  code :=
    { shape := .struct false [("offset", (.one (.unsigned 64))), ("path", (.one (.type 99)))]
      extentBytes := some 300
      sizeBits := .sum [.lit 40, .sizeOf (.self "path") 8, .lit 0]
      serialize := .seq [.write 40 (.get (.self "offset")), .writeComposite (.self "path")]
      deserialize := .struct [⟨"offset", [], .one (.num 40)⟩, ⟨"path", [], .one .composite⟩] }
  bytes := (6, 118)
  fields := [(true, 40, 40), (true, 8, 904)]

/-- `uavcan::file::read_1_0::ReadResponse` (canadensis_data_types/src/generated.rs L5916). -/
def t114 : Entry where
  path := "uavcan::file::read_1_0::ReadResponse"
  dsdl := "uavcan.file.Read.1.0"
  role := .response
  definition := ⟨(some 2400), false, .struct [.data "error" (.type 98) .scalar, .data "data" (.prim (.uint 8 true)) (.var 256)]⟩
  code :=
    { shape := .struct false [("error", (.one (.type 98))), ("data", (.vec (.unsigned 8) 256))]
      extentBytes := some 300
      sizeBits := .sum [.lit 16, .lit 16, .lenTimes (.self "data") 8 1, .lit 0]
      serialize := .seq [.writeComposite (.self "error"), .writeAligned 16 (.len (.self "data") 16), .writeBytes (.self "data")]
      deserialize := .struct [⟨"error", [], .one .composite⟩, ⟨"data", [], .vec 16 256 (.num 8)⟩] }
  bytes := (4, 260)
  fields := [(true, 16, 16), (true, 0, 2048)]

/-- `uavcan::file::read_1_1::ReadRequest` (canadensis_data_types/src/generated.rs L5981). -/
def t115 : Entry where
  path := "uavcan::file::read_1_1::ReadRequest"
  dsdl := "uavcan.file.Read.1.1"
  role := .request
  definition := ⟨(some 2400), true, .struct [.data "offset" (.prim (.uint 40 false)) .scalar, .data "path" (.type 102) .scalar]⟩
  code :=
    { shape := .struct false [("offset", (.one (.unsigned 64))), ("path", (.one (.type 102)))]
      extentBytes := some 300
      sizeBits := .sum [.lit 40, .sizeOf (.self "path") 8, .lit 0]
      serialize := .seq [.write 40 (.get (.self "offset")), .writeComposite (.self "path")]
      deserialize := .struct [⟨"offset", [], .one (.num 40)⟩, ⟨"path", [], .one .composite⟩] }
  bytes := (6, 261)
  fields := [(true, 40, 40), (true, 8, 2048)]

/-- `uavcan::primitive::unstructured_1_0::Unstructured` (canadensis_data_types/src/generated.rs L12075). -/
def t116 : Entry where
  path := "uavcan::primitive::unstructured_1_0::Unstructured"
  dsdl := "uavcan.primitive.Unstructured.1.0"
  role := .message
  definition := ⟨none, false, .struct [.data "value" (.prim (.uint 8 true)) (.var 256)]⟩
  code :=
    { shape := .struct false [("value", (.vec (.unsigned 8) 256))]
      extentBytes := none
      sizeBits := .sum [.lit 16, .lenTimes (.self "value") 8 1, .lit 0]
      serialize := .seq [.writeAligned 16 (.len (.self "value") 16), .writeBytes (.self "value")]
      deserialize := .struct [⟨"value", [], .vec 16 256 (.num 8)⟩] }
  bytes := (2, 258)
  fields := [(true, 0, 2048)]

/-- `uavcan::file::read_1_1::ReadResponse` (canadensis_data_types/src/generated.rs L6032). -/
def t117 : Entry where
  path := "uavcan::file::read_1_1::ReadResponse"
  dsdl := "uavcan.file.Read.1.1"
  role := .response
  definition := ⟨(some 2400), false, .struct [.data "error" (.type 98) .scalar, .data "data" (.type 116) .scalar]⟩
  code :=
    { shape := .struct false [("error", (.one (.type 98))), ("data", (.one (.type 116)))]
      extentBytes := some 300
      sizeBits := .sum [.lit 16, .sizeOf (.self "data") 8, .lit 0]
      serialize := .seq [.writeComposite (.self "error"), .writeComposite (.self "data")]
      deserialize := .struct [⟨"error", [], .one .composite⟩, ⟨"data", [], .one .composite⟩] }
  bytes := (4, 260)
  fields := [(true, 16, 16), (true, 16, 2064)]

/-- `uavcan::file::write_1_0::WriteRequest` (canadensis_data_types/src/generated.rs L6087). -/
def t118 : Entry where
  path := "uavcan::file::write_1_0::WriteRequest"
  dsdl := "uavcan.file.Write.1.0"
  role := .request
  definition := ⟨(some 4800), true, .struct [.data "offset" (.prim (.uint 40 false)) .scalar, .data "path" (.type 99) .scalar, .data "data" (.prim (.uint 8 true)) (.var 192)]⟩
  code :=
    { shape := .struct false [("offset", (.one (.unsigned 64))), ("path", (.one (.type 99))), ("data", (.vec (.unsigned 8) 192))]
      extentBytes := some 600
      sizeBits := .sum [.lit 40, .sizeOf (.self "path") 8, .lit 8, .lenTimes (.self "data") 8 1, .lit 0]
      serialize := .seq [.write 40 (.get (.self "offset")), .writeComposite (.self "path"), .writeAligned 8 (.len (.self "data") 8), .writeBytes (.self "data")]
      deserialize := .struct [⟨"offset", [], .one (.num 40)⟩, ⟨"path", [], .one .composite⟩, ⟨"data", [], .vec 8 192 (.num 8)⟩] }
  bytes := (7, 311)
  fields := [(true, 40, 40), (true, 8, 904), (true, 0, 1536)]

/-- `uavcan::file::write_1_0::WriteResponse` (canadensis_data_types/src/generated.rs L6166). -/
def t119 : Entry where
  path := "uavcan::file::write_1_0::WriteResponse"
  dsdl := "uavcan.file.Write.1.0"
  role := .response
  definition := ⟨(some 384), false, .struct [.data "error" (.type 98) .scalar]⟩
  code :=
    { shape := .struct true [("error", (.one (.type 98)))]
      extentBytes := some 48
      sizeBits := .sum [.lit 16]
      serialize := .seq [.alignedBytes]
      deserialize := .zeroCopy }
  bytes := (2, 2)
  fields := [(true, 16, 16)]

/-- `uavcan::file::write_1_1::WriteRequest` (canadensis_data_types/src/generated.rs L6216). -/
def t120 : Entry where
  path := "uavcan::file::write_1_1::WriteRequest"
  dsdl := "uavcan.file.Write.1.1"
  role := .request
  definition := ⟨(some 4800), true, .struct [.data "offset" (.prim (.uint 40 false)) .scalar, .data "path" (.type 102) .scalar, .data "data" (.type 116) .scalar]⟩
  code :=
    { shape := .struct false [("offset", (.one (.unsigned 64))), ("path", (.one (.type 102))), ("data", (.one (.type 116)))]
      extentBytes := some 600
      sizeBits := .sum [.lit 40, .sizeOf (.self "path") 8, .sizeOf (.self "data") 8, .lit 0]
      serialize := .seq [.write 40 (.get (.self "offset")), .writeComposite (.self "path"), .writeComposite (.self "data")]
      deserialize := .struct [⟨"offset", [], .one (.num 40)⟩, ⟨"path", [], .one .composite⟩, ⟨"data", [], .one .composite⟩] }
  bytes := (8, 519)
  fields := [(true, 40, 40), (true, 8, 2048), (true, 16, 2064)]

/-- `uavcan::file::write_1_1::WriteResponse` (canadensis_data_types/src/generated.rs L6277). -/
def t121 : Entry where
  path := "uavcan::file::write_1_1::WriteResponse"
  dsdl := "uavcan.file.Write.1.1"
  role := .response
  definition := ⟨(some 384), false, .struct [.data "error" (.type 98) .scalar]⟩
  code :=
    { shape := .struct true [("error", (.one (.type 98)))]
      extentBytes := some 48
      sizeBits := .sum [.lit 16]
      serialize := .seq [.alignedBytes]
      deserialize := .zeroCopy }
  bytes := (2, 2)
  fields := [(true, 16, 16)]

/-- `uavcan::internet::udp::handle_incoming_packet_0_1::HandleIncomingPacketRequest` (canadensis_data_types/src/generated.rs L6332). -/
def t122 : Entry where
  path := "uavcan::internet::udp::handle_incoming_packet_0_1::HandleIncomingPacketRequest"
  dsdl := "uavcan.internet.udp.HandleIncomingPacket.0.1"
  role := .request
  definition := ⟨(some 4800), true, .struct [.data "session_id" (.prim (.uint 16 true)) .scalar, .data "payload" (.prim (.uint 8 true)) (.var 309)]⟩
  code :=
    { shape := .struct false [("session_id", (.one (.unsigned 16))), ("payload", (.vec (.unsigned 8) 309))]
      extentBytes := some 600
      sizeBits := .sum [.lit 16, .lit 16, .lenTimes (.self "payload") 8 1, .lit 0]
      serialize := .seq [.writeAligned 16 (.get (.self "session_id")), .writeAligned 16 (.len (.self "payload") 16), .writeBytes (.self "payload")]
      deserialize := .struct [⟨"session_id", [], .one (.num 16)⟩, ⟨"payload", [], .vec 16 309 (.num 8)⟩] }
  bytes := (4, 313)
  fields := [(true, 16, 16), (true, 0, 2472)]

/-- `uavcan::internet::udp::handle_incoming_packet_0_1::HandleIncomingPacketResponse` (canadensis_data_types/src/generated.rs L6406). -/
def t123 : Entry where
  path := "uavcan::internet::udp::handle_incoming_packet_0_1::HandleIncomingPacketResponse"
  dsdl := "uavcan.internet.udp.HandleIncomingPacket.0.1"
  role := .response
  definition := ⟨(some 504), false, .struct []⟩
  code :=
    { shape := .struct true []
      extentBytes := some 63
      sizeBits := .sum [.lit 0]
      serialize := .seq [.alignedBytes]
      deserialize := .zeroCopy }
  bytes := (0, 0)
  fields := []

/-- `uavcan::internet::udp::handle_incoming_packet_0_2::HandleIncomingPacketRequest` (canadensis_data_types/src/generated.rs L6451). -/
def t124 : Entry where
  path := "uavcan::internet::udp::handle_incoming_packet_0_2::HandleIncomingPacketRequest"
  dsdl := "uavcan.internet.udp.HandleIncomingPacket.0.2"
  role := .request
  definition := ⟨(some 4800), true, .struct [.data "session_id" (.prim (.uint 16 true)) .scalar, .data "payload" (.prim (.uint 8 true)) (.var 508)]⟩
  code :=
    { shape := .struct false [("session_id", (.one (.unsigned 16))), ("payload", (.vec (.unsigned 8) 508))]
      extentBytes := some 600
      sizeBits := .sum [.lit 16, .lit 16, .lenTimes (.self "payload") 8 1, .lit 0]
      serialize := .seq [.writeAligned 16 (.get (.self "session_id")), .writeAligned 16 (.len (.self "payload") 16), .writeBytes (.self "payload")]
      deserialize := .struct [⟨"session_id", [], .one (.num 16)⟩, ⟨"payload", [], .vec 16 508 (.num 8)⟩] }
  bytes := (4, 512)
  fields := [(true, 16, 16), (true, 0, 4064)]

/-- `uavcan::internet::udp::handle_incoming_packet_0_2::HandleIncomingPacketResponse` (canadensis_data_types/src/generated.rs L6524). -/
def t125 : Entry where
  path := "uavcan::internet::udp::handle_incoming_packet_0_2::HandleIncomingPacketResponse"
  dsdl := "uavcan.internet.udp.HandleIncomingPacket.0.2"
  role := .response
  definition := ⟨(some 504), false, .struct []⟩
  code :=
    { shape := .struct true []
      extentBytes := some 63
      sizeBits := .sum [.lit 0]
      serialize := .seq [.alignedBytes]
      deserialize := .zeroCopy }
  bytes := (0, 0)
  fields := []

/-- `uavcan::internet::udp::outgoing_packet_0_1::OutgoingPacket` (canadensis_data_types/src/generated.rs L6571). -/
def t126 : Entry where
  path := "uavcan::internet::udp::outgoing_packet_0_1::OutgoingPacket"
  dsdl := "uavcan.internet.udp.OutgoingPacket.0.1"
  role := .message
  definition := ⟨(some 4800), false, .struct [.data "session_id" (.prim (.uint 16 true)) .scalar, .data "destination_port" (.prim (.uint 16 true)) .scalar, .data "destination_address" (.prim (.uint 8 true)) (.var 45), .data "use_masquerading" (.prim .boolean) .scalar, .data "use_dtls" (.prim .boolean) .scalar, .padding 6, .data "payload" (.prim (.uint 8 true)) (.var 260)]⟩
  code :=
    { shape := .struct false [("session_id", (.one (.unsigned 16))), ("destination_port", (.one (.unsigned 16))), ("destination_address", (.vec (.unsigned 8) 45)), ("use_masquerading", (.one .bool)), ("use_dtls", (.one .bool)), ("payload", (.vec (.unsigned 8) 260))]
      extentBytes := some 600
      sizeBits := .sum [.lit 16, .lit 16, .lit 8, .lenTimes (.self "destination_address") 8 1, .lit 1, .lit 1, .lit 6, .lit 16, .lenTimes (.self "payload") 8 1, .lit 0]
      serialize := .seq [.writeAligned 16 (.get (.self "session_id")), .writeAligned 16 (.get (.self "destination_port")), .writeAligned 8 (.len (.self "destination_address") 8), .writeBytes (.self "destination_address"), .writeBool (.self "use_masquerading"), .writeBool (.self "use_dtls"), .skip 6, .writeAligned 16 (.len (.self "payload") 16), .writeBytes (.self "payload")]
      deserialize := .struct [⟨"session_id", [], .one (.num 16)⟩, ⟨"destination_port", [], .one (.num 16)⟩, ⟨"destination_address", [], .vec 8 45 (.num 8)⟩, ⟨"use_masquerading", [], .one .bool⟩, ⟨"use_dtls", [], .one .bool⟩, ⟨"payload", [6], .vec 16 260 (.num 8)⟩] }
  bytes := (8, 313)
  fields := [(true, 16, 16), (true, 16, 16), (true, 0, 360), (true, 1, 1), (false, 1, 1), (true, 0, 2080)]

/-- `uavcan::internet::udp::outgoing_packet_0_2::OutgoingPacket` (canadensis_data_types/src/generated.rs L6726). -/
def t127 : Entry where
  path := "uavcan::internet::udp::outgoing_packet_0_2::OutgoingPacket"
  dsdl := "uavcan.internet.udp.OutgoingPacket.0.2"
  role := .message
  definition := ⟨(some 4800), false, .struct [.data "session_id" (.prim (.uint 16 true)) .scalar, .data "destination_port" (.prim (.uint 16 true)) .scalar, .data "destination_address" (.prim (.uint 8 true)) (.var 45), .data "use_masquerading" (.prim .boolean) .scalar, .data "use_dtls" (.prim .boolean) .scalar, .padding 6, .data "payload" (.prim (.uint 8 true)) (.var 508)]⟩
  code :=
    { shape := .struct false [("session_id", (.one (.unsigned 16))), ("destination_port", (.one (.unsigned 16))), ("destination_address", (.vec (.unsigned 8) 45)), ("use_masquerading", (.one .bool)), ("use_dtls", (.one .bool)), ("payload", (.vec (.unsigned 8) 508))]
      extentBytes := some 600
      sizeBits := .sum [.lit 16, .lit 16, .lit 8, .lenTimes (.self "destination_address") 8 1, .lit 1, .lit 1, .lit 6, .lit 16, .lenTimes (.self "payload") 8 1, .lit 0]
      serialize := .seq [.writeAligned 16 (.get (.self "session_id")), .writeAligned 16 (.get (.self "destination_port")), .writeAligned 8 (.len (.self "destination_address") 8), .writeBytes (.self "destination_address"), .writeBool (.self "use_masquerading"), .writeBool (.self "use_dtls"), .skip 6, .writeAligned 16 (.len (.self "payload") 16), .writeBytes (.self "payload")]
      deserialize := .struct [⟨"session_id", [], .one (.num 16)⟩, ⟨"destination_port", [], .one (.num 16)⟩, ⟨"destination_address", [], .vec 8 45 (.num 8)⟩, ⟨"use_masquerading", [], .one .bool⟩, ⟨"use_dtls", [], .one .bool⟩, ⟨"payload", [6], .vec 16 508 (.num 8)⟩] }
  bytes := (8, 561)
  fields := [(true, 16, 16), (true, 16, 16), (true, 0, 360), (true, 1, 1), (false, 1, 1), (true, 0, 4064)]

/-- `uavcan::metatransport::can::base_arbitration_id_0_1::BaseArbitrationID` (canadensis_data_types/src/generated.rs L6934). -/
def t128 : Entry where
  path := "uavcan::metatransport::can::base_arbitration_id_0_1::BaseArbitrationID"
  dsdl := "uavcan.metatransport.can.BaseArbitrationID.0.1"
  role := .message
  definition := ⟨none, false, .struct [.data "value" (.prim (.uint 11 false)) .scalar, .padding 21]⟩
  code :=
    { shape := .struct false [("value", (.one (.unsigned 16)))]
      extentBytes := none
      sizeBits := .sum [.lit 32]
      serialize := .seq [.write 11 (.get (.self "value")), .skip 21]
      deserialize := .struct [⟨"value", [], .one (.num 11)⟩] }
  bytes := (4, 4)
  fields := [(true, 11, 11)]

/-- `uavcan::metatransport::can::extended_arbitration_id_0_1::ExtendedArbitrationID` (canadensis_data_types/src/generated.rs L7142). -/
def t129 : Entry where
  path := "uavcan::metatransport::can::extended_arbitration_id_0_1::ExtendedArbitrationID"
  dsdl := "uavcan.metatransport.can.ExtendedArbitrationID.0.1"
  role := .message
  definition := ⟨none, false, .struct [.data "value" (.prim (.uint 29 false)) .scalar, .padding 3]⟩
  code :=
    { shape := .struct false [("value", (.one (.unsigned 32)))]
      extentBytes := none
      sizeBits := .sum [.lit 32]
      serialize := .seq [.write 29 (.get (.self "value")), .skip 3]
      deserialize := .struct [⟨"value", [], .one (.num 29)⟩] }
  bytes := (4, 4)
  fields := [(true, 29, 29)]

/-- `uavcan::metatransport::can::arbitration_id_0_1::ArbitrationID` (canadensis_data_types/src/generated.rs L6880). -/
def t130 : Entry where
  path := "uavcan::metatransport::can::arbitration_id_0_1::ArbitrationID"
  dsdl := "uavcan.metatransport.can.ArbitrationID.0.1"
  role := .message
  definition := ⟨none, false, .union [("Base", (.type 128), .scalar), ("Extended", (.type 129), .scalar)]⟩
  code :=
    { shape := .enum [("Base", (.one (.type 128))), ("Extended", (.one (.type 129)))]
      extentBytes := none
      sizeBits := .sum [.lit 40]
      serialize := .matchSelf [("Base", [.writeAligned 8 (.lit 0), .writeComposite .inner]), ("Extended", [.writeAligned 8 (.lit 1), .writeComposite .inner])]
      deserialize := .matchTag 8 [(0, "Base", .one .composite), (1, "Extended", .one .composite)] }
  bytes := (5, 5)
  fields := []

/-- `uavcan::metatransport::can::data_classic_0_1::DataClassic` (canadensis_data_types/src/generated.rs L6977). -/
def t131 : Entry where
  path := "uavcan::metatransport::can::data_classic_0_1::DataClassic"
  dsdl := "uavcan.metatransport.can.DataClassic.0.1"
  role := .message
  definition := ⟨none, false, .struct [.data "arbitration_id" (.type 130) .scalar, .data "data" (.prim (.uint 8 true)) (.var 8)]⟩
  code :=
    { shape := .struct false [("arbitration_id", (.one (.type 130))), ("data", (.vec (.unsigned 8) 8))]
      extentBytes := none
      sizeBits := .sum [.lit 40, .lit 8, .lenTimes (.self "data") 8 1, .lit 0]
      serialize := .seq [.writeComposite (.self "arbitration_id"), .writeAligned 8 (.len (.self "data") 8), .writeBytes (.self "data")]
      deserialize := .struct [⟨"arbitration_id", [], .one .composite⟩, ⟨"data", [], .vec 8 8 (.num 8)⟩] }
  bytes := (6, 14)
  fields := [(true, 40, 40), (true, 0, 64)]

/-- `uavcan::metatransport::can::data_fd_0_1::DataFD` (canadensis_data_types/src/generated.rs L7041). -/
def t132 : Entry where
  path := "uavcan::metatransport::can::data_fd_0_1::DataFD"
  dsdl := "uavcan.metatransport.can.DataFD.0.1"
  role := .message
  definition := ⟨none, false, .struct [.data "arbitration_id" (.type 130) .scalar, .data "data" (.prim (.uint 8 true)) (.var 64)]⟩
  code :=
    { shape := .struct false [("arbitration_id", (.one (.type 130))), ("data", (.vec (.unsigned 8) 64))]
      extentBytes := none
      sizeBits := .sum [.lit 40, .lit 8, .lenTimes (.self "data") 8 1, .lit 0]
      serialize := .seq [.writeComposite (.self "arbitration_id"), .writeAligned 8 (.len (.self "data") 8), .writeBytes (.self "data")]
      deserialize := .struct [⟨"arbitration_id", [], .one .composite⟩, ⟨"data", [], .vec 8 64 (.num 8)⟩] }
  bytes := (6, 70)
  fields := [(true, 40, 40), (true, 0, 512)]

/-- `uavcan::metatransport::can::error_0_1::Error` (canadensis_data_types/src/generated.rs L7105). -/
def t133 : Entry where
  path := "uavcan::metatransport::can::error_0_1::Error"
  dsdl := "uavcan.metatransport.can.Error.0.1"
  role := .message
  definition := ⟨none, false, .struct [.padding 32]⟩
  code :=
    { shape := .struct false []
      extentBytes := none
      sizeBits := .sum [.lit 32]
      serialize := .seq [.skip 32]
      deserialize := .struct [] }
  bytes := (4, 4)
  fields := []

/-- `uavcan::metatransport::can::rtr_0_1::RTR` (canadensis_data_types/src/generated.rs L7414). -/
def t134 : Entry where
  path := "uavcan::metatransport::can::rtr_0_1::RTR"
  dsdl := "uavcan.metatransport.can.RTR.0.1"
  role := .message
  definition := ⟨none, false, .struct [.data "arbitration_id" (.type 130) .scalar]⟩
  code :=
    { shape := .struct false [("arbitration_id", (.one (.type 130)))]
      extentBytes := none
      sizeBits := .sum [.lit 40]
      serialize := .seq [.writeComposite (.self "arbitration_id")]
      deserialize := .struct [⟨"arbitration_id", [], .one .composite⟩] }
  bytes := (5, 5)
  fields := [(true, 40, 40)]

/-- `uavcan::metatransport::can::manifestation_0_1::Manifestation` (canadensis_data_types/src/generated.rs L7329). -/
def t135 : Entry where
  path := "uavcan::metatransport::can::manifestation_0_1::Manifestation"
  dsdl := "uavcan.metatransport.can.Manifestation.0.1"
  role := .message
  definition := ⟨none, false, .union [("Error", (.type 133), .scalar), ("DataFd", (.type 132), .scalar), ("DataClassic", (.type 131), .scalar), ("RemoteTransmissionRequest", (.type 134), .scalar)]⟩
  code :=
    { shape := .enum [("Error", (.one (.type 133))), ("DataFd", (.one (.type 132))), ("DataClassic", (.one (.type 131))), ("RemoteTransmissionRequest", (.one (.type 134)))]
      extentBytes := none
      sizeBits := .matchSelf 8 [("Error", [.lit 32]), ("DataFd", [.sizeOf .inner 8]), ("DataClassic", [.sizeOf .inner 8]), ("RemoteTransmissionRequest", [.lit 40])]
      serialize := .matchSelf [("Error", [.writeAligned 8 (.lit 0), .writeComposite .inner]), ("DataFd", [.writeAligned 8 (.lit 1), .writeComposite .inner]), ("DataClassic", [.writeAligned 8 (.lit 2), .writeComposite .inner]), ("RemoteTransmissionRequest", [.writeAligned 8 (.lit 3), .writeComposite .inner])]
      deserialize := .matchTag 8 [(0, "Error", .one .composite), (1, "DataFd", .one .composite), (2, "DataClassic", .one .composite), (3, "RemoteTransmissionRequest", .one .composite)] }
  bytes := (5, 71)
  fields := []

/-- `uavcan::metatransport::can::frame_0_1::Frame` (canadensis_data_types/src/generated.rs L7187). -/
def t136 : Entry where
  path := "uavcan::metatransport::can::frame_0_1::Frame"
  dsdl := "uavcan.metatransport.can.Frame.0.1"
  role := .message
  definition := ⟨none, false, .struct [.data "timestamp" (.type 10) .scalar, .data "manifestation" (.type 135) .scalar]⟩
  code :=
    { shape := .struct false [("timestamp", (.one (.type 10))), ("manifestation", (.one (.type 135)))]
      extentBytes := none
      sizeBits := .sum [.lit 56, .sizeOf (.self "manifestation") 8, .lit 0]
      serialize := .seq [.writeComposite (.self "timestamp"), .writeComposite (.self "manifestation")]
      deserialize := .struct [⟨"timestamp", [], .one .composite⟩, ⟨"manifestation", [], .one .composite⟩] }
  bytes := (12, 78)
  fields := [(true, 56, 56), (true, 40, 568)]

/-- `uavcan::metatransport::can::frame_0_2::Frame` (canadensis_data_types/src/generated.rs L7242). -/
def t137 : Entry where
  path := "uavcan::metatransport::can::frame_0_2::Frame"
  dsdl := "uavcan.metatransport.can.Frame.0.2"
  role := .message
  definition := ⟨none, false, .union [("Error", (.type 133), .scalar), ("DataFd", (.type 132), .scalar), ("DataClassic", (.type 131), .scalar), ("RemoteTransmissionRequest", (.type 134), .scalar)]⟩
  code :=
    { shape := .enum [("Error", (.one (.type 133))), ("DataFd", (.one (.type 132))), ("DataClassic", (.one (.type 131))), ("RemoteTransmissionRequest", (.one (.type 134)))]
      extentBytes := none
      sizeBits := .matchSelf 8 [("Error", [.lit 32]), ("DataFd", [.sizeOf .inner 8]), ("DataClassic", [.sizeOf .inner 8]), ("RemoteTransmissionRequest", [.lit 40])]
      serialize := .matchSelf [("Error", [.writeAligned 8 (.lit 0), .writeComposite .inner]), ("DataFd", [.writeAligned 8 (.lit 1), .writeComposite .inner]), ("DataClassic", [.writeAligned 8 (.lit 2), .writeComposite .inner]), ("RemoteTransmissionRequest", [.writeAligned 8 (.lit 3), .writeComposite .inner])]
      deserialize := .matchTag 8 [(0, "Error", .one .composite), (1, "DataFd", .one .composite), (2, "DataClassic", .one .composite), (3, "RemoteTransmissionRequest", .one .composite)] }
  bytes := (5, 71)
  fields := []

/-- `uavcan::metatransport::ethernet::ether_type_0_1::EtherType` (canadensis_data_types/src/generated.rs L7461). -/
def t138 : Entry where
  path := "uavcan::metatransport::ethernet::ether_type_0_1::EtherType"
  dsdl := "uavcan.metatransport.ethernet.EtherType.0.1"
  role := .message
  definition := ⟨none, false, .struct [.data "value" (.prim (.uint 16 true)) .scalar]⟩
  code :=
    { shape := .struct true [("value", (.one (.unsigned 16)))]
      extentBytes := none
      sizeBits := .sum [.lit 16]
      serialize := .seq [.alignedBytes]
      deserialize := .zeroCopy }
  bytes := (2, 2)
  fields := [(true, 16, 16)]

/-- `uavcan::metatransport::ethernet::frame_0_1::Frame` (canadensis_data_types/src/generated.rs L7514). -/
def t139 : Entry where
  path := "uavcan::metatransport::ethernet::frame_0_1::Frame"
  dsdl := "uavcan.metatransport.ethernet.Frame.0.1"
  role := .message
  definition := ⟨none, false, .struct [.data "destination" (.prim (.uint 8 true)) (.fixed 6), .data "source" (.prim (.uint 8 true)) (.fixed 6), .data "ethertype" (.type 138) .scalar, .data "payload" (.prim (.uint 8 true)) (.var 9216)]⟩
  code :=
    { shape := .struct false [("destination", (.array (.unsigned 8) 6)), ("source", (.array (.unsigned 8) 6)), ("ethertype", (.one (.type 138))), ("payload", (.vec (.unsigned 8) 9216))]
      extentBytes := none
      sizeBits := .sum [.lenTimes (.self "destination") 8 1, .lenTimes (.self "source") 8 1, .lit 16, .lit 16, .lenTimes (.self "payload") 8 1, .lit 0]
      serialize := .seq [.writeBytes (.self "destination"), .writeBytes (.self "source"), .writeComposite (.self "ethertype"), .writeAligned 16 (.len (.self "payload") 16), .writeBytes (.self "payload")]
      deserialize := .struct [⟨"destination", [], .array (List.replicate 6 (.num 8))⟩, ⟨"source", [], .array (List.replicate 6 (.num 8))⟩, ⟨"ethertype", [], .one .composite⟩, ⟨"payload", [], .vec 16 9216 (.num 8)⟩] }
  bytes := (16, 9232)
  fields := [(true, 48, 48), (true, 48, 48), (true, 16, 16), (true, 0, 73728)]

/-- `uavcan::metatransport::serial::fragment_0_1::Fragment` (canadensis_data_types/src/generated.rs L7628). -/
def t140 : Entry where
  path := "uavcan::metatransport::serial::fragment_0_1::Fragment"
  dsdl := "uavcan.metatransport.serial.Fragment.0.1"
  role := .message
  definition := ⟨none, false, .struct [.data "timestamp" (.type 10) .scalar, .data "data" (.prim (.uint 8 true)) (.var 256)]⟩
  code :=
    { shape := .struct false [("timestamp", (.one (.type 10))), ("data", (.vec (.unsigned 8) 256))]
      extentBytes := none
      sizeBits := .sum [.lit 56, .lit 16, .lenTimes (.self "data") 8 1, .lit 0]
      serialize := .seq [.writeComposite (.self "timestamp"), .writeAligned 16 (.len (.self "data") 16), .writeBytes (.self "data")]
      deserialize := .struct [⟨"timestamp", [], .one .composite⟩, ⟨"data", [], .vec 16 256 (.num 8)⟩] }
  bytes := (9, 265)
  fields := [(true, 56, 56), (true, 0, 2048)]

/-- `uavcan::metatransport::serial::fragment_0_2::Fragment` (canadensis_data_types/src/generated.rs L7698). -/
def t141 : Entry where
  path := "uavcan::metatransport::serial::fragment_0_2::Fragment"
  dsdl := "uavcan.metatransport.serial.Fragment.0.2"
  role := .message
  definition := ⟨none, false, .struct [.data "data" (.prim (.uint 8 true)) (.var 2048)]⟩
  code :=
    { shape := .struct false [("data", (.vec (.unsigned 8) 2048))]
      extentBytes := none
      sizeBits := .sum [.lit 16, .lenTimes (.self "data") 8 1, .lit 0]
      serialize := .seq [.writeAligned 16 (.len (.self "data") 16), .writeBytes (.self "data")]
      deserialize := .struct [⟨"data", [], .vec 16 2048 (.num 8)⟩] }
  bytes := (2, 2050)
  fields := [(true, 0, 16384)]

/-- `uavcan::metatransport::udp::endpoint_0_1::Endpoint` (canadensis_data_types/src/generated.rs L7762). -/
def t142 : Entry where
  path := "uavcan::metatransport::udp::endpoint_0_1::Endpoint"
  dsdl := "uavcan.metatransport.udp.Endpoint.0.1"
  role := .message
  definition := ⟨none, false, .struct [.data "ip_address" (.prim (.uint 8 true)) (.fixed 16), .data "mac_address" (.prim (.uint 8 true)) (.fixed 6), .data "port" (.prim (.uint 16 true)) .scalar, .padding 64]⟩
  code :=
    { shape := .struct false [("ip_address", (.array (.unsigned 8) 16)), ("mac_address", (.array (.unsigned 8) 6)), ("port", (.one (.unsigned 16)))]
      extentBytes := none
      sizeBits := .sum [.lit 256]
      serialize := .seq [.writeBytes (.self "ip_address"), .writeBytes (.self "mac_address"), .writeAligned 16 (.get (.self "port")), .skip 64]
      deserialize := .struct [⟨"ip_address", [], .array (List.replicate 16 (.num 8))⟩, ⟨"mac_address", [], .array (List.replicate 6 (.num 8))⟩, ⟨"port", [], .one (.num 16)⟩] }
  bytes := (32, 32)
  fields := [(true, 128, 128), (true, 48, 48), (true, 16, 16)]

/-- `uavcan::metatransport::udp::frame_0_1::Frame` (canadensis_data_types/src/generated.rs L7864). -/
def t143 : Entry where
  path := "uavcan::metatransport::udp::frame_0_1::Frame"
  dsdl := "uavcan.metatransport.udp.Frame.0.1"
  role := .message
  definition := ⟨(some 81920), false, .struct [.data "timestamp" (.type 10) .scalar, .padding 8, .data "source" (.type 142) .scalar, .data "destination" (.type 142) .scalar, .data "data" (.prim (.uint 8 true)) (.var 9188)]⟩
  code :=
    { shape := .struct false [("timestamp", (.one (.type 10))), ("source", (.one (.type 142))), ("destination", (.one (.type 142))), ("data", (.vec (.unsigned 8) 9188))]
      extentBytes := some 10240
      sizeBits := .sum [.lit 56, .lit 8, .lit 256, .lit 256, .lit 16, .lenTimes (.self "data") 8 1, .lit 0]
      serialize := .seq [.writeComposite (.self "timestamp"), .skip 8, .writeComposite (.self "source"), .writeComposite (.self "destination"), .writeAligned 16 (.len (.self "data") 16), .writeBytes (.self "data")]
      deserialize := .struct [⟨"timestamp", [], .one .composite⟩, ⟨"source", [8], .one .composite⟩, ⟨"destination", [], .one .composite⟩, ⟨"data", [], .vec 16 9188 (.num 8)⟩] }
  bytes := (74, 9262)
  fields := [(true, 56, 56), (true, 256, 256), (true, 256, 256), (true, 0, 73504)]

/-- `uavcan::node::execute_command_1_0::ExecuteCommandRequest` (canadensis_data_types/src/generated.rs L7974). -/
def t144 : Entry where
  path := "uavcan::node::execute_command_1_0::ExecuteCommandRequest"
  dsdl := "uavcan.node.ExecuteCommand.1.0"
  role := .request
  definition := ⟨(some 2400), true, .struct [.data "command" (.prim (.uint 16 true)) .scalar, .data "parameter" (.prim (.uint 8 true)) (.var 112)]⟩
  code :=
    { shape := .struct false [("command", (.one (.unsigned 16))), ("parameter", (.vec (.unsigned 8) 112))]
      extentBytes := some 300
      sizeBits := .sum [.lit 16, .lit 8, .lenTimes (.self "parameter") 8 1, .lit 0]
      serialize := .seq [.writeAligned 16 (.get (.self "command")), .writeAligned 8 (.len (.self "parameter") 8), .writeBytes (.self "parameter")]
      deserialize := .struct [⟨"command", [], .one (.num 16)⟩, ⟨"parameter", [], .vec 8 112 (.num 8)⟩] }
  bytes := (3, 115)
  fields := [(true, 16, 16), (true, 0, 896)]

/-- `uavcan::node::execute_command_1_0::ExecuteCommandResponse` (canadensis_data_types/src/generated.rs L8077). -/
def t145 : Entry where
  path := "uavcan::node::execute_command_1_0::ExecuteCommandResponse"
  dsdl := "uavcan.node.ExecuteCommand.1.0"
  role := .response
  definition := ⟨(some 384), false, .struct [.data "status" (.prim (.uint 8 true)) .scalar]⟩
  code :=
    { shape := .struct true [("status", (.one (.unsigned 8)))]
      extentBytes := some 48
      sizeBits := .sum [.lit 8]
      serialize := .seq [.alignedBytes]
      deserialize := .zeroCopy }
  bytes := (1, 1)
  fields := [(true, 8, 8)]

/-- `uavcan::node::execute_command_1_1::ExecuteCommandRequest` (canadensis_data_types/src/generated.rs L8164). -/
def t146 : Entry where
  path := "uavcan::node::execute_command_1_1::ExecuteCommandRequest"
  dsdl := "uavcan.node.ExecuteCommand.1.1"
  role := .request
  definition := ⟨(some 2400), true, .struct [.data "command" (.prim (.uint 16 true)) .scalar, .data "parameter" (.prim (.uint 8 true)) (.var 255)]⟩
  code :=
    { shape := .struct false [("command", (.one (.unsigned 16))), ("parameter", (.vec (.unsigned 8) 255))]
      extentBytes := some 300
      sizeBits := .sum [.lit 16, .lit 8, .lenTimes (.self "parameter") 8 1, .lit 0]
      serialize := .seq [.writeAligned 16 (.get (.self "command")), .writeAligned 8 (.len (.self "parameter") 8), .writeBytes (.self "parameter")]
      deserialize := .struct [⟨"command", [], .one (.num 16)⟩, ⟨"parameter", [], .vec 8 255 (.num 8)⟩] }
  bytes := (3, 258)
  fields := [(true, 16, 16), (true, 0, 2040)]

/-- `uavcan::node::execute_command_1_1::ExecuteCommandResponse` (canadensis_data_types/src/generated.rs L8267). -/
def t147 : Entry where
  path := "uavcan::node::execute_command_1_1::ExecuteCommandResponse"
  dsdl := "uavcan.node.ExecuteCommand.1.1"
  role := .response
  definition := ⟨(some 384), false, .struct [.data "status" (.prim (.uint 8 true)) .scalar]⟩
  code :=
    { shape := .struct true [("status", (.one (.unsigned 8)))]
      extentBytes := some 48
      sizeBits := .sum [.lit 8]
      serialize := .seq [.alignedBytes]
      deserialize := .zeroCopy }
  bytes := (1, 1)
  fields := [(true, 8, 8)]

/-- `uavcan::node::execute_command_1_2::ExecuteCommandRequest` (canadensis_data_types/src/generated.rs L8354). -/
def t148 : Entry where
  path := "uavcan::node::execute_command_1_2::ExecuteCommandRequest"
  dsdl := "uavcan.node.ExecuteCommand.1.2"
  role := .request
  definition := ⟨(some 2400), true, .struct [.data "command" (.prim (.uint 16 true)) .scalar, .data "parameter" (.prim (.uint 8 true)) (.var 255)]⟩
  code :=
    { shape := .struct false [("command", (.one (.unsigned 16))), ("parameter", (.vec (.unsigned 8) 255))]
      extentBytes := some 300
      sizeBits := .sum [.lit 16, .lit 8, .lenTimes (.self "parameter") 8 1, .lit 0]
      serialize := .seq [.writeAligned 16 (.get (.self "command")), .writeAligned 8 (.len (.self "parameter") 8), .writeBytes (.self "parameter")]
      deserialize := .struct [⟨"command", [], .one (.num 16)⟩, ⟨"parameter", [], .vec 8 255 (.num 8)⟩] }
  bytes := (3, 258)
  fields := [(true, 16, 16), (true, 0, 2040)]

/-- `uavcan::node::execute_command_1_2::ExecuteCommandResponse` (canadensis_data_types/src/generated.rs L8462). -/
def t149 : Entry where
  path := "uavcan::node::execute_command_1_2::ExecuteCommandResponse"
  dsdl := "uavcan.node.ExecuteCommand.1.2"
  role := .response
  definition := ⟨(some 384), false, .struct [.data "status" (.prim (.uint 8 true)) .scalar]⟩
  code :=
    { shape := .struct true [("status", (.one (.unsigned 8)))]
      extentBytes := some 48
      sizeBits := .sum [.lit 8]
      serialize := .seq [.alignedBytes]
      deserialize := .zeroCopy }
  bytes := (1, 1)
  fields := [(true, 8, 8)]

/-- `uavcan::node::execute_command_1_3::ExecuteCommandRequest` (canadensis_data_types/src/generated.rs L8546). -/
def t150 : Entry where
  path := "uavcan::node::execute_command_1_3::ExecuteCommandRequest"
  dsdl := "uavcan.node.ExecuteCommand.1.3"
  role := .request
  definition := ⟨(some 2400), true, .struct [.data "command" (.prim (.uint 16 true)) .scalar, .data "parameter" (.prim (.uint 8 true)) (.var 255)]⟩
  code :=
    { shape := .struct false [("command", (.one (.unsigned 16))), ("parameter", (.vec (.unsigned 8) 255))]
      extentBytes := some 300
      sizeBits := .sum [.lit 16, .lit 8, .lenTimes (.self "parameter") 8 1, .lit 0]
      serialize := .seq [.writeAligned 16 (.get (.self "command")), .writeAligned 8 (.len (.self "parameter") 8), .writeBytes (.self "parameter")]
      deserialize := .struct [⟨"command", [], .one (.num 16)⟩, ⟨"parameter", [], .vec 8 255 (.num 8)⟩] }
  bytes := (3, 258)
  fields := [(true, 16, 16), (true, 0, 2040)]

/-- `uavcan::node::execute_command_1_3::ExecuteCommandResponse` (canadensis_data_types/src/generated.rs L8653). -/
def t151 : Entry where
  path := "uavcan::node::execute_command_1_3::ExecuteCommandResponse"
  dsdl := "uavcan.node.ExecuteCommand.1.3"
  role := .response
  definition := ⟨(some 384), false, .struct [.data "status" (.prim (.uint 8 true)) .scalar, .data "output" (.prim (.uint 8 true)) (.var 46)]⟩
  code :=
    { shape := .struct false [("status", (.one (.unsigned 8))), ("output", (.vec (.unsigned 8) 46))]
      extentBytes := some 48
      sizeBits := .sum [.lit 8, .lit 8, .lenTimes (.self "output") 8 1, .lit 0]
      serialize := .seq [.writeAligned 8 (.get (.self "status")), .writeAligned 8 (.len (.self "output") 8), .writeBytes (.self "output")]
      deserialize := .struct [⟨"status", [], .one (.num 8)⟩, ⟨"output", [], .vec 8 46 (.num 8)⟩] }
  bytes := (2, 48)
  fields := [(true, 8, 8), (true, 0, 368)]

/-- `uavcan::node::get_info_1_0::GetInfoRequest` (canadensis_data_types/src/generated.rs L8752). -/
def t152 : Entry where
  path := "uavcan::node::get_info_1_0::GetInfoRequest"
  dsdl := "uavcan.node.GetInfo.1.0"
  role := .request
  definition := ⟨none, true, .struct []⟩
  code :=
    { shape := .struct true []
      extentBytes := none
      sizeBits := .sum [.lit 0]
      serialize := .seq [.alignedBytes]
      deserialize := .zeroCopy }
  bytes := (0, 0)
  fields := []

/-- `uavcan::node::version_1_0::Version` (canadensis_data_types/src/generated.rs L10095). -/
def t153 : Entry where
  path := "uavcan::node::version_1_0::Version"
  dsdl := "uavcan.node.Version.1.0"
  role := .message
  definition := ⟨none, false, .struct [.data "major" (.prim (.uint 8 true)) .scalar, .data "minor" (.prim (.uint 8 true)) .scalar]⟩
  code :=
    { shape := .struct true [("major", (.one (.unsigned 8))), ("minor", (.one (.unsigned 8)))]
      extentBytes := none
      sizeBits := .sum [.lit 16]
      serialize := .seq [.alignedBytes]
      deserialize := .zeroCopy }
  bytes := (2, 2)
  fields := [(true, 8, 8), (true, 8, 8)]

/-- `uavcan::node::get_info_1_0::GetInfoResponse` (canadensis_data_types/src/generated.rs L8792). -/
def t154 : Entry where
  path := "uavcan::node::get_info_1_0::GetInfoResponse"
  dsdl := "uavcan.node.GetInfo.1.0"
  role := .response
  definition := ⟨(some 3584), false, .struct [.data "protocol_version" (.type 153) .scalar, .data "hardware_version" (.type 153) .scalar, .data "software_version" (.type 153) .scalar, .data "software_vcs_revision_id" (.prim (.uint 64 true)) .scalar, .data "unique_id" (.prim (.uint 8 true)) (.fixed 16), .data "name" (.prim (.uint 8 true)) (.var 50), .data "software_image_crc" (.prim (.uint 64 true)) (.var 1), .data "certificate_of_authenticity" (.prim (.uint 8 true)) (.var 222)]⟩
  code :=
    { shape := .struct false [("protocol_version", (.one (.type 153))), ("hardware_version", (.one (.type 153))), ("software_version", (.one (.type 153))), ("software_vcs_revision_id", (.one (.unsigned 64))), ("unique_id", (.array (.unsigned 8) 16)), ("name", (.vec (.unsigned 8) 50)), ("software_image_crc", (.vec (.unsigned 64) 1)), ("certificate_of_authenticity", (.vec (.unsigned 8) 222))]
      extentBytes := some 448
      sizeBits := .sum [.lit 16, .lit 16, .lit 16, .lit 64, .lenTimes (.self "unique_id") 8 1, .lit 8, .lenTimes (.self "name") 8 1, .lit 8, .lenTimes (.self "software_image_crc") 64 1, .lit 8, .lenTimes (.self "certificate_of_authenticity") 8 1, .lit 0]
      serialize := .seq [.writeComposite (.self "protocol_version"), .writeComposite (.self "hardware_version"), .writeComposite (.self "software_version"), .writeAligned 64 (.get (.self "software_vcs_revision_id")), .writeBytes (.self "unique_id"), .writeAligned 8 (.len (.self "name") 8), .writeBytes (.self "name"), .writeAligned 8 (.len (.self "software_image_crc") 8), .forEach (.self "software_image_crc") (.write 64 (.get .value)), .writeAligned 8 (.len (.self "certificate_of_authenticity") 8), .writeBytes (.self "certificate_of_authenticity")]
      deserialize := .struct [⟨"protocol_version", [], .one .composite⟩, ⟨"hardware_version", [], .one .composite⟩, ⟨"software_version", [], .one .composite⟩, ⟨"software_vcs_revision_id", [], .one (.num 64)⟩, ⟨"unique_id", [], .array (List.replicate 16 (.num 8))⟩, ⟨"name", [], .vec 8 50 (.num 8)⟩, ⟨"software_image_crc", [], .vec 8 1 (.num 64)⟩, ⟨"certificate_of_authenticity", [], .vec 8 222 (.num 8)⟩] }
  bytes := (33, 313)
  fields := [(true, 16, 16), (true, 16, 16), (true, 16, 16), (true, 64, 64), (true, 128, 128), (true, 0, 400), (true, 0, 64), (true, 0, 1776)]

/-- `uavcan::node::get_transport_statistics_0_1::GetTransportStatisticsRequest` (canadensis_data_types/src/generated.rs L8987). -/
def t155 : Entry where
  path := "uavcan::node::get_transport_statistics_0_1::GetTransportStatisticsRequest"
  dsdl := "uavcan.node.GetTransportStatistics.0.1"
  role := .request
  definition := ⟨none, true, .struct []⟩
  code :=
    { shape := .struct true []
      extentBytes := none
      sizeBits := .sum [.lit 0]
      serialize := .seq [.alignedBytes]
      deserialize := .zeroCopy }
  bytes := (0, 0)
  fields := []

/-- `uavcan::node::io_statistics_0_1::IOStatistics` (canadensis_data_types/src/generated.rs L9319). -/
def t156 : Entry where
  path := "uavcan::node::io_statistics_0_1::IOStatistics"
  dsdl := "uavcan.node.IOStatistics.0.1"
  role := .message
  definition := ⟨none, false, .struct [.data "num_emitted" (.prim (.uint 40 false)) .scalar, .data "num_received" (.prim (.uint 40 false)) .scalar, .data "num_errored" (.prim (.uint 40 false)) .scalar]⟩
  code :=
    { shape := .struct false [("num_emitted", (.one (.unsigned 64))), ("num_received", (.one (.unsigned 64))), ("num_errored", (.one (.unsigned 64)))]
      extentBytes := none
      sizeBits := .sum [.lit 120]
      serialize := .seq [.write 40 (.get (.self "num_emitted")), .write 40 (.get (.self "num_received")), .write 40 (.get (.self "num_errored"))]
      deserialize := .struct [⟨"num_emitted", [], .one (.num 40)⟩, ⟨"num_received", [], .one (.num 40)⟩, ⟨"num_errored", [], .one (.num 40)⟩] }
  bytes := (15, 15)
  fields := [(true, 40, 40), (true, 40, 40), (true, 40, 40)]

/-- `uavcan::node::get_transport_statistics_0_1::GetTransportStatisticsResponse` (canadensis_data_types/src/generated.rs L9030). -/
def t157 : Entry where
  path := "uavcan::node::get_transport_statistics_0_1::GetTransportStatisticsResponse"
  dsdl := "uavcan.node.GetTransportStatistics.0.1"
  role := .response
  definition := ⟨(some 1536), false, .struct [.data "transfer_statistics" (.type 156) .scalar, .data "network_interface_statistics" (.type 156) (.var 3)]⟩
  code :=
    { shape := .struct false [("transfer_statistics", (.one (.type 156))), ("network_interface_statistics", (.vec (.type 156) 3))]
      extentBytes := some 192
      sizeBits := .sum [.lit 120, .lit 8, .lenTimes (.self "network_interface_statistics") 120 8, .lit 0]
      serialize := .seq [.writeComposite (.self "transfer_statistics"), .writeAligned 8 (.len (.self "network_interface_statistics") 8), .forEach (.self "network_interface_statistics") (.writeComposite .value)]
      deserialize := .struct [⟨"transfer_statistics", [], .one .composite⟩, ⟨"network_interface_statistics", [], .vec 8 3 .composite⟩] }
  bytes := (16, 61)
  fields := [(true, 120, 120), (true, 0, 360)]

/-- `uavcan::node::mode_1_0::Mode` (canadensis_data_types/src/generated.rs L9385). -/
def t158 : Entry where
  path := "uavcan::node::mode_1_0::Mode"
  dsdl := "uavcan.node.Mode.1.0"
  role := .message
  definition := ⟨none, false, .struct [.data "value" (.prim (.uint 3 true)) .scalar]⟩
  code :=
    { shape := .struct false [("value", (.one (.unsigned 8)))]
      extentBytes := none
      sizeBits := .sum [.lit 8]
      serialize := .seq [.write 3 (.get (.self "value"))]
      deserialize := .struct [⟨"value", [], .one (.num 3)⟩] }
  bytes := (1, 1)
  fields := [(true, 3, 3)]

/-- `uavcan::node::heartbeat_1_0::Heartbeat` (canadensis_data_types/src/generated.rs L9178). -/
def t159 : Entry where
  path := "uavcan::node::heartbeat_1_0::Heartbeat"
  dsdl := "uavcan.node.Heartbeat.1.0"
  role := .message
  definition := ⟨(some 96), false, .struct [.data "uptime" (.prim (.uint 32 true)) .scalar, .data "health" (.type 73) .scalar, .data "mode" (.type 158) .scalar, .data "vendor_specific_status_code" (.prim (.uint 8 true)) .scalar]⟩
  code :=
    { shape := .struct false [("uptime", (.one (.unsigned 32))), ("health", (.one (.type 73))), ("mode", (.one (.type 158))), ("vendor_specific_status_code", (.one (.unsigned 8)))]
      extentBytes := some 12
      sizeBits := .sum [.lit 56]
      serialize := .seq [.writeAligned 32 (.get (.self "uptime")), .writeComposite (.self "health"), .writeComposite (.self "mode"), .writeAligned 8 (.get (.self "vendor_specific_status_code"))]
      deserialize := .struct [⟨"uptime", [], .one (.num 32)⟩, ⟨"health", [], .one .composite⟩, ⟨"mode", [], .one .composite⟩, ⟨"vendor_specific_status_code", [], .one (.num 8)⟩] }
  bytes := (7, 7)
  fields := [(true, 32, 32), (true, 8, 8), (true, 8, 8), (true, 8, 8)]

/-- `uavcan::node::id_1_0::ID` (canadensis_data_types/src/generated.rs L9270). -/
def t160 : Entry where
  path := "uavcan::node::id_1_0::ID"
  dsdl := "uavcan.node.ID.1.0"
  role := .message
  definition := ⟨none, false, .struct [.data "value" (.prim (.uint 16 true)) .scalar]⟩
  code :=
    { shape := .struct true [("value", (.one (.unsigned 16)))]
      extentBytes := none
      sizeBits := .sum [.lit 16]
      serialize := .seq [.alignedBytes]
      deserialize := .zeroCopy }
  bytes := (2, 2)
  fields := [(true, 16, 16)]

/-- `uavcan::node::port::subject_id_1_0::SubjectID` (canadensis_data_types/src/generated.rs L9831). -/
def t161 : Entry where
  path := "uavcan::node::port::subject_id_1_0::SubjectID"
  dsdl := "uavcan.node.port.SubjectID.1.0"
  role := .message
  definition := ⟨none, false, .struct [.data "value" (.prim (.uint 13 true)) .scalar]⟩
  code :=
    { shape := .struct false [("value", (.one (.unsigned 16)))]
      extentBytes := none
      sizeBits := .sum [.lit 16]
      serialize := .seq [.write 13 (.get (.self "value"))]
      deserialize := .struct [⟨"value", [], .one (.num 13)⟩] }
  bytes := (2, 2)
  fields := [(true, 13, 13)]

/-- `uavcan::node::port::service_id_1_0::ServiceID` (canadensis_data_types/src/generated.rs L9674). -/
def t162 : Entry where
  path := "uavcan::node::port::service_id_1_0::ServiceID"
  dsdl := "uavcan.node.port.ServiceID.1.0"
  role := .message
  definition := ⟨none, false, .struct [.data "value" (.prim (.uint 9 true)) .scalar]⟩
  code :=
    { shape := .struct false [("value", (.one (.unsigned 16)))]
      extentBytes := none
      sizeBits := .sum [.lit 16]
      serialize := .seq [.write 9 (.get (.self "value"))]
      deserialize := .struct [⟨"value", [], .one (.num 9)⟩] }
  bytes := (2, 2)
  fields := [(true, 9, 9)]

/-- `uavcan::node::port::id_1_0::ID` (canadensis_data_types/src/generated.rs L9445). -/
def t163 : Entry where
  path := "uavcan::node::port::id_1_0::ID"
  dsdl := "uavcan.node.port.ID.1.0"
  role := .message
  definition := ⟨none, false, .union [("SubjectId", (.type 161), .scalar), ("ServiceId", (.type 162), .scalar)]⟩
  code :=
    { shape := .enum [("SubjectId", (.one (.type 161))), ("ServiceId", (.one (.type 162)))]
      extentBytes := none
      sizeBits := .sum [.lit 24]
      serialize := .matchSelf [("SubjectId", [.writeAligned 8 (.lit 0), .writeComposite .inner]), ("ServiceId", [.writeAligned 8 (.lit 1), .writeComposite .inner])]
      deserialize := .matchTag 8 [(0, "SubjectId", .one .composite), (1, "ServiceId", .one .composite)] }
  bytes := (3, 3)
  fields := []

/-- `uavcan::primitive::empty_1_0::Empty` (canadensis_data_types/src/generated.rs L11433). -/
def t164 : Entry where
  path := "uavcan::primitive::empty_1_0::Empty"
  dsdl := "uavcan.primitive.Empty.1.0"
  role := .message
  definition := ⟨none, false, .struct []⟩
  code :=
    { shape := .struct true []
      extentBytes := none
      sizeBits := .sum [.lit 0]
      serialize := .seq [.alignedBytes]
      deserialize := .zeroCopy }
  bytes := (0, 0)
  fields := []

/-- `uavcan::node::port::subject_id_list_0_1::SubjectIDList` (canadensis_data_types/src/generated.rs L9879). -/
def t165 : Entry where
  path := "uavcan::node::port::subject_id_list_0_1::SubjectIDList"
  dsdl := "uavcan.node.port.SubjectIDList.0.1"
  role := .message
  definition := ⟨(some 32776), false, .union [("Mask", (.prim .boolean), (.fixed 8192)), ("SparseList", (.type 161), (.var 255)), ("Total", (.type 164), .scalar)]⟩
  code :=
    { shape := .enum [("Mask", (.bitArray 1024)), ("SparseList", (.vec (.type 161) 255)), ("Total", (.one (.type 164)))]
      extentBytes := some 4097
      sizeBits := .matchSelf 8 [("Mask", [.lenTimes .inner 1 1]), ("SparseList", [.lit 8, .lenTimes .inner 16 8]), ("Total", [.lit 0])]
      serialize := .matchSelf [("Mask", [.writeAligned 8 (.lit 0), .writeBits .inner]), ("SparseList", [.writeAligned 8 (.lit 1), .writeAligned 8 (.len .inner 8), .forEach .inner (.writeComposite .value)]), ("Total", [.writeAligned 8 (.lit 2), .writeComposite .inner])]
      deserialize := .matchTag 8 [(0, "Mask", .bits 8192), (1, "SparseList", .vec 8 255 .composite), (2, "Total", .one .composite)] }
  bytes := (1, 1025)
  fields := []

/-- `uavcan::node::port::service_id_list_0_1::ServiceIDList` (canadensis_data_types/src/generated.rs L9722). -/
def t166 : Entry where
  path := "uavcan::node::port::service_id_list_0_1::ServiceIDList"
  dsdl := "uavcan.node.port.ServiceIDList.0.1"
  role := .message
  definition := ⟨(some 1024), false, .struct [.data "mask" (.prim .boolean) (.fixed 512)]⟩
  code :=
    { shape := .struct false [("mask", (.bitArray 64))]
      extentBytes := some 128
      sizeBits := .sum [.lit 512]
      serialize := .seq [.writeBits (.self "mask")]
      deserialize := .struct [⟨"mask", [], .bits 512⟩] }
  bytes := (64, 64)
  fields := [(true, 512, 512)]

/-- `uavcan::node::port::list_0_1::List` (canadensis_data_types/src/generated.rs L9507). -/
def t167 : Entry where
  path := "uavcan::node::port::list_0_1::List"
  dsdl := "uavcan.node.port.List.0.1"
  role := .message
  definition := ⟨none, false, .struct [.data "publishers" (.type 165) .scalar, .data "subscribers" (.type 165) .scalar, .data "clients" (.type 166) .scalar, .data "servers" (.type 166) .scalar]⟩
  code :=
    { shape := .struct false [("publishers", (.one (.type 165))), ("subscribers", (.one (.type 165))), ("clients", (.one (.type 166))), ("servers", (.one (.type 166)))]
      extentBytes := none
      sizeBits := .sum [.lit 32, .sizeOf (.self "publishers") 8, .lit 32, .sizeOf (.self "subscribers") 8, .lit 32, .lit 512, .lit 32, .lit 512, .lit 0]
      serialize := .seq [.writeComposite (.self "publishers"), .writeComposite (.self "subscribers"), .writeComposite (.self "clients"), .writeComposite (.self "servers")]
      deserialize := .struct [⟨"publishers", [], .one .composite⟩, ⟨"subscribers", [], .one .composite⟩, ⟨"clients", [], .one .composite⟩, ⟨"servers", [], .one .composite⟩] }
  bytes := (146, 2194)
  fields := [(true, 8, 8200), (true, 8, 8200), (true, 512, 512), (true, 512, 512)]

/-- `uavcan::node::port::subject_id_list_1_0::SubjectIDList` (canadensis_data_types/src/generated.rs L9987). -/
def t168 : Entry where
  path := "uavcan::node::port::subject_id_list_1_0::SubjectIDList"
  dsdl := "uavcan.node.port.SubjectIDList.1.0"
  role := .message
  definition := ⟨(some 32776), false, .union [("Mask", (.prim .boolean), (.fixed 8192)), ("SparseList", (.type 161), (.var 255)), ("Total", (.type 164), .scalar)]⟩
  code :=
    { shape := .enum [("Mask", (.bitArray 1024)), ("SparseList", (.vec (.type 161) 255)), ("Total", (.one (.type 164)))]
      extentBytes := some 4097
      sizeBits := .matchSelf 8 [("Mask", [.lenTimes .inner 1 1]), ("SparseList", [.lit 8, .lenTimes .inner 16 8]), ("Total", [.lit 0])]
      serialize := .matchSelf [("Mask", [.writeAligned 8 (.lit 0), .writeBits .inner]), ("SparseList", [.writeAligned 8 (.lit 1), .writeAligned 8 (.len .inner 8), .forEach .inner (.writeComposite .value)]), ("Total", [.writeAligned 8 (.lit 2), .writeComposite .inner])]
      deserialize := .matchTag 8 [(0, "Mask", .bits 8192), (1, "SparseList", .vec 8 255 .composite), (2, "Total", .one .composite)] }
  bytes := (1, 1025)
  fields := []

/-- `uavcan::node::port::service_id_list_1_0::ServiceIDList` (canadensis_data_types/src/generated.rs L9777). -/
def t169 : Entry where
  path := "uavcan::node::port::service_id_list_1_0::ServiceIDList"
  dsdl := "uavcan.node.port.ServiceIDList.1.0"
  role := .message
  definition := ⟨(some 1024), false, .struct [.data "mask" (.prim .boolean) (.fixed 512)]⟩
  code :=
    { shape := .struct false [("mask", (.bitArray 64))]
      extentBytes := some 128
      sizeBits := .sum [.lit 512]
      serialize := .seq [.writeBits (.self "mask")]
      deserialize := .struct [⟨"mask", [], .bits 512⟩] }
  bytes := (64, 64)
  fields := [(true, 512, 512)]

/-- `uavcan::node::port::list_1_0::List` (canadensis_data_types/src/generated.rs L9593). -/
def t170 : Entry where
  path := "uavcan::node::port::list_1_0::List"
  dsdl := "uavcan.node.port.List.1.0"
  role := .message
  definition := ⟨none, false, .struct [.data "publishers" (.type 168) .scalar, .data "subscribers" (.type 168) .scalar, .data "clients" (.type 169) .scalar, .data "servers" (.type 169) .scalar]⟩
  code :=
    { shape := .struct false [("publishers", (.one (.type 168))), ("subscribers", (.one (.type 168))), ("clients", (.one (.type 169))), ("servers", (.one (.type 169)))]
      extentBytes := none
      sizeBits := .sum [.lit 32, .sizeOf (.self "publishers") 8, .lit 32, .sizeOf (.self "subscribers") 8, .lit 32, .lit 512, .lit 32, .lit 512, .lit 0]
      serialize := .seq [.writeComposite (.self "publishers"), .writeComposite (.self "subscribers"), .writeComposite (.self "clients"), .writeComposite (.self "servers")]
      deserialize := .struct [⟨"publishers", [], .one .composite⟩, ⟨"subscribers", [], .one .composite⟩, ⟨"clients", [], .one .composite⟩, ⟨"servers", [], .one .composite⟩] }
  bytes := (146, 2194)
  fields := [(true, 8, 8200), (true, 8, 8200), (true, 512, 512), (true, 512, 512)]

/-- `uavcan::pnp::cluster::entry_1_0::Entry` (canadensis_data_types/src/generated.rs L10410). -/
def t171 : Entry where
  path := "uavcan::pnp::cluster::entry_1_0::Entry"
  dsdl := "uavcan.pnp.cluster.Entry.1.0"
  role := .message
  definition := ⟨none, false, .struct [.data "term" (.prim (.uint 32 true)) .scalar, .data "unique_id" (.prim (.uint 8 true)) (.fixed 16), .data "node_id" (.type 160) .scalar]⟩
  code :=
    { shape := .struct true [("term", (.one (.unsigned 32))), ("unique_id", (.array (.unsigned 8) 16)), ("node_id", (.one (.type 160)))]
      extentBytes := none
      sizeBits := .sum [.lit 176]
      serialize := .seq [.alignedBytes]
      deserialize := .zeroCopy }
  bytes := (22, 22)
  fields := [(true, 32, 32), (true, 128, 128), (true, 16, 16)]

/-- `uavcan::pnp::cluster::append_entries_1_0::AppendEntriesRequest` (canadensis_data_types/src/generated.rs L10158). -/
def t172 : Entry where
  path := "uavcan::pnp::cluster::append_entries_1_0::AppendEntriesRequest"
  dsdl := "uavcan.pnp.cluster.AppendEntries.1.0"
  role := .request
  definition := ⟨(some 768), true, .struct [.data "term" (.prim (.uint 32 true)) .scalar, .data "prev_log_term" (.prim (.uint 32 true)) .scalar, .data "prev_log_index" (.prim (.uint 16 true)) .scalar, .data "leader_commit" (.prim (.uint 16 true)) .scalar, .data "entries" (.type 171) (.var 1)]⟩
  code :=
    { shape := .struct false [("term", (.one (.unsigned 32))), ("prev_log_term", (.one (.unsigned 32))), ("prev_log_index", (.one (.unsigned 16))), ("leader_commit", (.one (.unsigned 16))), ("entries", (.vec (.type 171) 1))]
      extentBytes := some 96
      sizeBits := .sum [.lit 32, .lit 32, .lit 16, .lit 16, .lit 8, .lenTimes (.self "entries") 176 8, .lit 0]
      serialize := .seq [.writeAligned 32 (.get (.self "term")), .writeAligned 32 (.get (.self "prev_log_term")), .writeAligned 16 (.get (.self "prev_log_index")), .writeAligned 16 (.get (.self "leader_commit")), .writeAligned 8 (.len (.self "entries") 8), .forEach (.self "entries") (.writeComposite .value)]
      deserialize := .struct [⟨"term", [], .one (.num 32)⟩, ⟨"prev_log_term", [], .one (.num 32)⟩, ⟨"prev_log_index", [], .one (.num 16)⟩, ⟨"leader_commit", [], .one (.num 16)⟩, ⟨"entries", [], .vec 8 1 .composite⟩] }
  bytes := (13, 35)
  fields := [(true, 32, 32), (true, 32, 32), (true, 16, 16), (true, 16, 16), (true, 0, 176)]

/-- `uavcan::pnp::cluster::append_entries_1_0::AppendEntriesResponse` (canadensis_data_types/src/generated.rs L10267). -/
def t173 : Entry where
  path := "uavcan::pnp::cluster::append_entries_1_0::AppendEntriesResponse"
  dsdl := "uavcan.pnp.cluster.AppendEntries.1.0"
  role := .response
  definition := ⟨(some 384), false, .struct [.data "term" (.prim (.uint 32 true)) .scalar, .data "success" (.prim .boolean) .scalar]⟩
  code :=
    { shape := .struct false [("term", (.one (.unsigned 32))), ("success", (.one .bool))]
      extentBytes := some 48
      sizeBits := .sum [.lit 40]
      serialize := .seq [.writeAligned 32 (.get (.self "term")), .writeBool (.self "success")]
      deserialize := .struct [⟨"term", [], .one (.num 32)⟩, ⟨"success", [], .one .bool⟩] }
  bytes := (5, 5)
  fields := [(true, 32, 32), (true, 1, 1)]

/-- `uavcan::pnp::cluster::discovery_1_0::Discovery` (canadensis_data_types/src/generated.rs L10320). -/
def t174 : Entry where
  path := "uavcan::pnp::cluster::discovery_1_0::Discovery"
  dsdl := "uavcan.pnp.cluster.Discovery.1.0"
  role := .message
  definition := ⟨(some 768), false, .struct [.data "configured_cluster_size" (.prim (.uint 3 true)) .scalar, .padding 5, .data "known_nodes" (.type 160) (.var 5)]⟩
  code :=
    { shape := .struct false [("configured_cluster_size", (.one (.unsigned 8))), ("known_nodes", (.vec (.type 160) 5))]
      extentBytes := some 96
      sizeBits := .sum [.lit 3, .lit 5, .lit 8, .lenTimes (.self "known_nodes") 16 8, .lit 0]
      serialize := .seq [.write 3 (.get (.self "configured_cluster_size")), .skip 5, .writeAligned 8 (.len (.self "known_nodes") 8), .forEach (.self "known_nodes") (.writeComposite .value)]
      deserialize := .struct [⟨"configured_cluster_size", [], .one (.num 3)⟩, ⟨"known_nodes", [5], .vec 8 5 .composite⟩] }
  bytes := (2, 12)
  fields := [(true, 3, 3), (true, 0, 80)]

/-- `uavcan::pnp::cluster::request_vote_1_0::RequestVoteRequest` (canadensis_data_types/src/generated.rs L10483). -/
def t175 : Entry where
  path := "uavcan::pnp::cluster::request_vote_1_0::RequestVoteRequest"
  dsdl := "uavcan.pnp.cluster.RequestVote.1.0"
  role := .request
  definition := ⟨(some 384), true, .struct [.data "term" (.prim (.uint 32 true)) .scalar, .data "last_log_term" (.prim (.uint 32 true)) .scalar, .data "last_log_index" (.prim (.uint 16 true)) .scalar]⟩
  code :=
    { shape := .struct true [("term", (.one (.unsigned 32))), ("last_log_term", (.one (.unsigned 32))), ("last_log_index", (.one (.unsigned 16)))]
      extentBytes := some 48
      sizeBits := .sum [.lit 80]
      serialize := .seq [.alignedBytes]
      deserialize := .zeroCopy }
  bytes := (10, 10)
  fields := [(true, 32, 32), (true, 32, 32), (true, 16, 16)]

/-- `uavcan::pnp::cluster::request_vote_1_0::RequestVoteResponse` (canadensis_data_types/src/generated.rs L10552). -/
def t176 : Entry where
  path := "uavcan::pnp::cluster::request_vote_1_0::RequestVoteResponse"
  dsdl := "uavcan.pnp.cluster.RequestVote.1.0"
  role := .response
  definition := ⟨(some 384), false, .struct [.data "term" (.prim (.uint 32 true)) .scalar, .data "vote_granted" (.prim .boolean) .scalar]⟩
  code :=
    { shape := .struct false [("term", (.one (.unsigned 32))), ("vote_granted", (.one .bool))]
      extentBytes := some 48
      sizeBits := .sum [.lit 40]
      serialize := .seq [.writeAligned 32 (.get (.self "term")), .writeBool (.self "vote_granted")]
      deserialize := .struct [⟨"term", [], .one (.num 32)⟩, ⟨"vote_granted", [], .one .bool⟩] }
  bytes := (5, 5)
  fields := [(true, 32, 32), (true, 1, 1)]

/-- `uavcan::pnp::node_id_allocation_data_1_0::NodeIDAllocationData` (canadensis_data_types/src/generated.rs L10606). -/
def t177 : Entry where
  path := "uavcan::pnp::node_id_allocation_data_1_0::NodeIDAllocationData"
  dsdl := "uavcan.pnp.NodeIDAllocationData.1.0"
  role := .message
  definition := ⟨none, false, .struct [.data "unique_id_hash" (.prim (.uint 48 false)) .scalar, .data "allocated_node_id" (.type 160) (.var 1)]⟩
  code :=
    { shape := .struct false [("unique_id_hash", (.one (.unsigned 64))), ("allocated_node_id", (.vec (.type 160) 1))]
      extentBytes := none
      sizeBits := .sum [.lit 48, .lit 8, .lenTimes (.self "allocated_node_id") 16 8, .lit 0]
      serialize := .seq [.write 48 (.get (.self "unique_id_hash")), .writeAligned 8 (.len (.self "allocated_node_id") 8), .forEach (.self "allocated_node_id") (.writeComposite .value)]
      deserialize := .struct [⟨"unique_id_hash", [], .one (.num 48)⟩, ⟨"allocated_node_id", [], .vec 8 1 .composite⟩] }
  bytes := (7, 9)
  fields := [(true, 48, 48), (true, 0, 16)]

/-- `uavcan::pnp::node_id_allocation_data_2_0::NodeIDAllocationData` (canadensis_data_types/src/generated.rs L10684). -/
def t178 : Entry where
  path := "uavcan::pnp::node_id_allocation_data_2_0::NodeIDAllocationData"
  dsdl := "uavcan.pnp.NodeIDAllocationData.2.0"
  role := .message
  definition := ⟨(some 384), false, .struct [.data "node_id" (.type 160) .scalar, .data "unique_id" (.prim (.uint 8 true)) (.fixed 16)]⟩
  code :=
    { shape := .struct true [("node_id", (.one (.type 160))), ("unique_id", (.array (.unsigned 8) 16))]
      extentBytes := some 48
      sizeBits := .sum [.lit 144]
      serialize := .seq [.alignedBytes]
      deserialize := .zeroCopy }
  bytes := (18, 18)
  fields := [(true, 16, 16), (true, 128, 128)]

/-- `uavcan::primitive::array::bit_1_0::Bit` (canadensis_data_types/src/generated.rs L10757). -/
def t179 : Entry where
  path := "uavcan::primitive::array::bit_1_0::Bit"
  dsdl := "uavcan.primitive.array.Bit.1.0"
  role := .message
  definition := ⟨none, false, .struct [.data "value" (.prim .boolean) (.var 2048)]⟩
  code :=
    { shape := .struct false [("value", (.bitArray 256))]
      extentBytes := none
      sizeBits := .sum [.lit 16, .lenTimes (.self "value") 1 1, .lit 0]
      serialize := .seq [.writeAligned 16 (.len (.self "value") 16), .writeBits (.self "value")]
      deserialize := .struct [⟨"value", [], .bitsVar 16⟩] }
  bytes := (2, 258)
  fields := [(true, 0, 2048)]

/-- `uavcan::primitive::array::integer16_1_0::Integer16` (canadensis_data_types/src/generated.rs L10809). -/
def t180 : Entry where
  path := "uavcan::primitive::array::integer16_1_0::Integer16"
  dsdl := "uavcan.primitive.array.Integer16.1.0"
  role := .message
  definition := ⟨none, false, .struct [.data "value" (.prim (.int 16)) (.var 128)]⟩
  code :=
    { shape := .struct false [("value", (.vec (.signed 16) 128))]
      extentBytes := none
      sizeBits := .sum [.lit 8, .lenTimes (.self "value") 16 1, .lit 0]
      serialize := .seq [.writeAligned 8 (.len (.self "value") 8), .forEach (.self "value") (.write 16 (.cast .value 16))]
      deserialize := .struct [⟨"value", [], .vec 8 128 (.num 16)⟩] }
  bytes := (1, 257)
  fields := [(true, 0, 2048)]

/-- `uavcan::primitive::array::integer32_1_0::Integer32` (canadensis_data_types/src/generated.rs L10865). -/
def t181 : Entry where
  path := "uavcan::primitive::array::integer32_1_0::Integer32"
  dsdl := "uavcan.primitive.array.Integer32.1.0"
  role := .message
  definition := ⟨none, false, .struct [.data "value" (.prim (.int 32)) (.var 64)]⟩
  code :=
    { shape := .struct false [("value", (.vec (.signed 32) 64))]
      extentBytes := none
      sizeBits := .sum [.lit 8, .lenTimes (.self "value") 32 1, .lit 0]
      serialize := .seq [.writeAligned 8 (.len (.self "value") 8), .forEach (.self "value") (.write 32 (.cast .value 32))]
      deserialize := .struct [⟨"value", [], .vec 8 64 (.num 32)⟩] }
  bytes := (1, 257)
  fields := [(true, 0, 2048)]

/-- `uavcan::primitive::array::integer64_1_0::Integer64` (canadensis_data_types/src/generated.rs L10921). -/
def t182 : Entry where
  path := "uavcan::primitive::array::integer64_1_0::Integer64"
  dsdl := "uavcan.primitive.array.Integer64.1.0"
  role := .message
  definition := ⟨none, false, .struct [.data "value" (.prim (.int 64)) (.var 32)]⟩
  code :=
    { shape := .struct false [("value", (.vec (.signed 64) 32))]
      extentBytes := none
      sizeBits := .sum [.lit 8, .lenTimes (.self "value") 64 1, .lit 0]
      serialize := .seq [.writeAligned 8 (.len (.self "value") 8), .forEach (.self "value") (.write 64 (.cast .value 64))]
      deserialize := .struct [⟨"value", [], .vec 8 32 (.num 64)⟩] }
  bytes := (1, 257)
  fields := [(true, 0, 2048)]

/-- `uavcan::primitive::array::integer8_1_0::Integer8` (canadensis_data_types/src/generated.rs L10977). -/
def t183 : Entry where
  path := "uavcan::primitive::array::integer8_1_0::Integer8"
  dsdl := "uavcan.primitive.array.Integer8.1.0"
  role := .message
  definition := ⟨none, false, .struct [.data "value" (.prim (.int 8)) (.var 256)]⟩
  code :=
    { shape := .struct false [("value", (.vec (.signed 8) 256))]
      extentBytes := none
      sizeBits := .sum [.lit 16, .lenTimes (.self "value") 8 1, .lit 0]
      serialize := .seq [.writeAligned 16 (.len (.self "value") 16), .forEach (.self "value") (.write 8 (.cast .value 8))]
      deserialize := .struct [⟨"value", [], .vec 16 256 (.num 8)⟩] }
  bytes := (2, 258)
  fields := [(true, 0, 2048)]

/-- `uavcan::primitive::array::natural16_1_0::Natural16` (canadensis_data_types/src/generated.rs L11033). -/
def t184 : Entry where
  path := "uavcan::primitive::array::natural16_1_0::Natural16"
  dsdl := "uavcan.primitive.array.Natural16.1.0"
  role := .message
  definition := ⟨none, false, .struct [.data "value" (.prim (.uint 16 true)) (.var 128)]⟩
  code :=
    { shape := .struct false [("value", (.vec (.unsigned 16) 128))]
      extentBytes := none
      sizeBits := .sum [.lit 8, .lenTimes (.self "value") 16 1, .lit 0]
      serialize := .seq [.writeAligned 8 (.len (.self "value") 8), .forEach (.self "value") (.write 16 (.get .value))]
      deserialize := .struct [⟨"value", [], .vec 8 128 (.num 16)⟩] }
  bytes := (1, 257)
  fields := [(true, 0, 2048)]

/-- `uavcan::primitive::array::natural32_1_0::Natural32` (canadensis_data_types/src/generated.rs L11089). -/
def t185 : Entry where
  path := "uavcan::primitive::array::natural32_1_0::Natural32"
  dsdl := "uavcan.primitive.array.Natural32.1.0"
  role := .message
  definition := ⟨none, false, .struct [.data "value" (.prim (.uint 32 true)) (.var 64)]⟩
  code :=
    { shape := .struct false [("value", (.vec (.unsigned 32) 64))]
      extentBytes := none
      sizeBits := .sum [.lit 8, .lenTimes (.self "value") 32 1, .lit 0]
      serialize := .seq [.writeAligned 8 (.len (.self "value") 8), .forEach (.self "value") (.write 32 (.get .value))]
      deserialize := .struct [⟨"value", [], .vec 8 64 (.num 32)⟩] }
  bytes := (1, 257)
  fields := [(true, 0, 2048)]

/-- `uavcan::primitive::array::natural64_1_0::Natural64` (canadensis_data_types/src/generated.rs L11145). -/
def t186 : Entry where
  path := "uavcan::primitive::array::natural64_1_0::Natural64"
  dsdl := "uavcan.primitive.array.Natural64.1.0"
  role := .message
  definition := ⟨none, false, .struct [.data "value" (.prim (.uint 64 true)) (.var 32)]⟩
  code :=
    { shape := .struct false [("value", (.vec (.unsigned 64) 32))]
      extentBytes := none
      sizeBits := .sum [.lit 8, .lenTimes (.self "value") 64 1, .lit 0]
      serialize := .seq [.writeAligned 8 (.len (.self "value") 8), .forEach (.self "value") (.write 64 (.get .value))]
      deserialize := .struct [⟨"value", [], .vec 8 32 (.num 64)⟩] }
  bytes := (1, 257)
  fields := [(true, 0, 2048)]

/-- `uavcan::primitive::array::natural8_1_0::Natural8` (canadensis_data_types/src/generated.rs L11201). -/
def t187 : Entry where
  path := "uavcan::primitive::array::natural8_1_0::Natural8"
  dsdl := "uavcan.primitive.array.Natural8.1.0"
  role := .message
  definition := ⟨none, false, .struct [.data "value" (.prim (.uint 8 true)) (.var 256)]⟩
  code :=
    { shape := .struct false [("value", (.vec (.unsigned 8) 256))]
      extentBytes := none
      sizeBits := .sum [.lit 16, .lenTimes (.self "value") 8 1, .lit 0]
      serialize := .seq [.writeAligned 16 (.len (.self "value") 16), .writeBytes (.self "value")]
      deserialize := .struct [⟨"value", [], .vec 16 256 (.num 8)⟩] }
  bytes := (2, 258)
  fields := [(true, 0, 2048)]

/-- `uavcan::primitive::array::real16_1_0::Real16` (canadensis_data_types/src/generated.rs L11255). -/
def t188 : Entry where
  path := "uavcan::primitive::array::real16_1_0::Real16"
  dsdl := "uavcan.primitive.array.Real16.1.0"
  role := .message
  definition := ⟨none, false, .struct [.data "value" (.prim .float16) (.var 128)]⟩
  code :=
    { shape := .struct false [("value", (.vec .f16 128))]
      extentBytes := none
      sizeBits := .sum [.lit 8, .lenTimes (.self "value") 16 1, .lit 0]
      serialize := .seq [.writeAligned 8 (.len (.self "value") 8), .forEach (.self "value") (.writeF16 .value)]
      deserialize := .struct [⟨"value", [], .vec 8 128 .f16⟩] }
  bytes := (1, 257)
  fields := [(true, 0, 2048)]

/-- `uavcan::primitive::array::real32_1_0::Real32` (canadensis_data_types/src/generated.rs L11312). -/
def t189 : Entry where
  path := "uavcan::primitive::array::real32_1_0::Real32"
  dsdl := "uavcan.primitive.array.Real32.1.0"
  role := .message
  definition := ⟨none, false, .struct [.data "value" (.prim .float32) (.var 64)]⟩
  code :=
    { shape := .struct false [("value", (.vec .f32 64))]
      extentBytes := none
      sizeBits := .sum [.lit 8, .lenTimes (.self "value") 32 1, .lit 0]
      serialize := .seq [.writeAligned 8 (.len (.self "value") 8), .forEach (.self "value") (.writeF32 .value)]
      deserialize := .struct [⟨"value", [], .vec 8 64 .f32⟩] }
  bytes := (1, 257)
  fields := [(true, 0, 2048)]

/-- `uavcan::primitive::array::real64_1_0::Real64` (canadensis_data_types/src/generated.rs L11372). -/
def t190 : Entry where
  path := "uavcan::primitive::array::real64_1_0::Real64"
  dsdl := "uavcan.primitive.array.Real64.1.0"
  role := .message
  definition := ⟨none, false, .struct [.data "value" (.prim .float64) (.var 32)]⟩
  code :=
    { shape := .struct false [("value", (.vec .f64 32))]
      extentBytes := none
      sizeBits := .sum [.lit 8, .lenTimes (.self "value") 64 1, .lit 0]
      serialize := .seq [.writeAligned 8 (.len (.self "value") 8), .forEach (.self "value") (.writeF64 .value)]
      deserialize := .struct [⟨"value", [], .vec 8 32 .f64⟩] }
  bytes := (1, 257)
  fields := [(true, 0, 2048)]

/-- `uavcan::primitive::scalar::bit_1_0::Bit` (canadensis_data_types/src/generated.rs L11471). -/
def t191 : Entry where
  path := "uavcan::primitive::scalar::bit_1_0::Bit"
  dsdl := "uavcan.primitive.scalar.Bit.1.0"
  role := .message
  definition := ⟨none, false, .struct [.data "value" (.prim .boolean) .scalar]⟩
  code :=
    { shape := .struct false [("value", (.one .bool))]
      extentBytes := none
      sizeBits := .sum [.lit 8]
      serialize := .seq [.writeBool (.self "value")]
      deserialize := .struct [⟨"value", [], .one .bool⟩] }
  bytes := (1, 1)
  fields := [(true, 1, 1)]

/-- `uavcan::primitive::scalar::integer16_1_0::Integer16` (canadensis_data_types/src/generated.rs L11511). -/
def t192 : Entry where
  path := "uavcan::primitive::scalar::integer16_1_0::Integer16"
  dsdl := "uavcan.primitive.scalar.Integer16.1.0"
  role := .message
  definition := ⟨none, false, .struct [.data "value" (.prim (.int 16)) .scalar]⟩
  code :=
    { shape := .struct true [("value", (.one (.signed 16)))]
      extentBytes := none
      sizeBits := .sum [.lit 16]
      serialize := .seq [.alignedBytes]
      deserialize := .zeroCopy }
  bytes := (2, 2)
  fields := [(true, 16, 16)]

/-- `uavcan::primitive::scalar::integer32_1_0::Integer32` (canadensis_data_types/src/generated.rs L11556). -/
def t193 : Entry where
  path := "uavcan::primitive::scalar::integer32_1_0::Integer32"
  dsdl := "uavcan.primitive.scalar.Integer32.1.0"
  role := .message
  definition := ⟨none, false, .struct [.data "value" (.prim (.int 32)) .scalar]⟩
  code :=
    { shape := .struct true [("value", (.one (.signed 32)))]
      extentBytes := none
      sizeBits := .sum [.lit 32]
      serialize := .seq [.alignedBytes]
      deserialize := .zeroCopy }
  bytes := (4, 4)
  fields := [(true, 32, 32)]

/-- `uavcan::primitive::scalar::integer64_1_0::Integer64` (canadensis_data_types/src/generated.rs L11601). -/
def t194 : Entry where
  path := "uavcan::primitive::scalar::integer64_1_0::Integer64"
  dsdl := "uavcan.primitive.scalar.Integer64.1.0"
  role := .message
  definition := ⟨none, false, .struct [.data "value" (.prim (.int 64)) .scalar]⟩
  code :=
    { shape := .struct true [("value", (.one (.signed 64)))]
      extentBytes := none
      sizeBits := .sum [.lit 64]
      serialize := .seq [.alignedBytes]
      deserialize := .zeroCopy }
  bytes := (8, 8)
  fields := [(true, 64, 64)]

/-- `uavcan::primitive::scalar::integer8_1_0::Integer8` (canadensis_data_types/src/generated.rs L11646). -/
def t195 : Entry where
  path := "uavcan::primitive::scalar::integer8_1_0::Integer8"
  dsdl := "uavcan.primitive.scalar.Integer8.1.0"
  role := .message
  definition := ⟨none, false, .struct [.data "value" (.prim (.int 8)) .scalar]⟩
  code :=
    { shape := .struct true [("value", (.one (.signed 8)))]
      extentBytes := none
      sizeBits := .sum [.lit 8]
      serialize := .seq [.alignedBytes]
      deserialize := .zeroCopy }
  bytes := (1, 1)
  fields := [(true, 8, 8)]

/-- `uavcan::primitive::scalar::natural16_1_0::Natural16` (canadensis_data_types/src/generated.rs L11691). -/
def t196 : Entry where
  path := "uavcan::primitive::scalar::natural16_1_0::Natural16"
  dsdl := "uavcan.primitive.scalar.Natural16.1.0"
  role := .message
  definition := ⟨none, false, .struct [.data "value" (.prim (.uint 16 true)) .scalar]⟩
  code :=
    { shape := .struct true [("value", (.one (.unsigned 16)))]
      extentBytes := none
      sizeBits := .sum [.lit 16]
      serialize := .seq [.alignedBytes]
      deserialize := .zeroCopy }
  bytes := (2, 2)
  fields := [(true, 16, 16)]

/-- `uavcan::primitive::scalar::natural32_1_0::Natural32` (canadensis_data_types/src/generated.rs L11736). -/
def t197 : Entry where
  path := "uavcan::primitive::scalar::natural32_1_0::Natural32"
  dsdl := "uavcan.primitive.scalar.Natural32.1.0"
  role := .message
  definition := ⟨none, false, .struct [.data "value" (.prim (.uint 32 true)) .scalar]⟩
  code :=
    { shape := .struct true [("value", (.one (.unsigned 32)))]
      extentBytes := none
      sizeBits := .sum [.lit 32]
      serialize := .seq [.alignedBytes]
      deserialize := .zeroCopy }
  bytes := (4, 4)
  fields := [(true, 32, 32)]

/-- `uavcan::primitive::scalar::natural64_1_0::Natural64` (canadensis_data_types/src/generated.rs L11781). -/
def t198 : Entry where
  path := "uavcan::primitive::scalar::natural64_1_0::Natural64"
  dsdl := "uavcan.primitive.scalar.Natural64.1.0"
  role := .message
  definition := ⟨none, false, .struct [.data "value" (.prim (.uint 64 true)) .scalar]⟩
  code :=
    { shape := .struct true [("value", (.one (.unsigned 64)))]
      extentBytes := none
      sizeBits := .sum [.lit 64]
      serialize := .seq [.alignedBytes]
      deserialize := .zeroCopy }
  bytes := (8, 8)
  fields := [(true, 64, 64)]

/-- `uavcan::primitive::scalar::natural8_1_0::Natural8` (canadensis_data_types/src/generated.rs L11826). -/
def t199 : Entry where
  path := "uavcan::primitive::scalar::natural8_1_0::Natural8"
  dsdl := "uavcan.primitive.scalar.Natural8.1.0"
  role := .message
  definition := ⟨none, false, .struct [.data "value" (.prim (.uint 8 true)) .scalar]⟩
  code :=
    { shape := .struct true [("value", (.one (.unsigned 8)))]
      extentBytes := none
      sizeBits := .sum [.lit 8]
      serialize := .seq [.alignedBytes]
      deserialize := .zeroCopy }
  bytes := (1, 1)
  fields := [(true, 8, 8)]

/-- `uavcan::primitive::scalar::real16_1_0::Real16` (canadensis_data_types/src/generated.rs L11871). -/
def t200 : Entry where
  path := "uavcan::primitive::scalar::real16_1_0::Real16"
  dsdl := "uavcan.primitive.scalar.Real16.1.0"
  role := .message
  definition := ⟨none, false, .struct [.data "value" (.prim .float16) .scalar]⟩
  code :=
    { shape := .struct true [("value", (.one .f16))]
      extentBytes := none
      sizeBits := .sum [.lit 16]
      serialize := .seq [.alignedBytes]
      deserialize := .zeroCopy }
  bytes := (2, 2)
  fields := [(true, 16, 16)]

/-- `uavcan::primitive::scalar::real32_1_0::Real32` (canadensis_data_types/src/generated.rs L11920). -/
def t201 : Entry where
  path := "uavcan::primitive::scalar::real32_1_0::Real32"
  dsdl := "uavcan.primitive.scalar.Real32.1.0"
  role := .message
  definition := ⟨none, false, .struct [.data "value" (.prim .float32) .scalar]⟩
  code :=
    { shape := .struct true [("value", (.one .f32))]
      extentBytes := none
      sizeBits := .sum [.lit 32]
      serialize := .seq [.alignedBytes]
      deserialize := .zeroCopy }
  bytes := (4, 4)
  fields := [(true, 32, 32)]

/-- `uavcan::primitive::scalar::real64_1_0::Real64` (canadensis_data_types/src/generated.rs L11969). -/
def t202 : Entry where
  path := "uavcan::primitive::scalar::real64_1_0::Real64"
  dsdl := "uavcan.primitive.scalar.Real64.1.0"
  role := .message
  definition := ⟨none, false, .struct [.data "value" (.prim .float64) .scalar]⟩
  code :=
    { shape := .struct true [("value", (.one .f64))]
      extentBytes := none
      sizeBits := .sum [.lit 64]
      serialize := .seq [.alignedBytes]
      deserialize := .zeroCopy }
  bytes := (8, 8)
  fields := [(true, 64, 64)]

/-- `uavcan::primitive::string_1_0::String` (canadensis_data_types/src/generated.rs L12019). -/
def t203 : Entry where
  path := "uavcan::primitive::string_1_0::String"
  dsdl := "uavcan.primitive.String.1.0"
  role := .message
  definition := ⟨none, false, .struct [.data "value" (.prim (.uint 8 true)) (.var 256)]⟩
  code :=
    { shape := .struct false [("value", (.vec (.unsigned 8) 256))]
      extentBytes := none
      sizeBits := .sum [.lit 16, .lenTimes (.self "value") 8 1, .lit 0]
      serialize := .seq [.writeAligned 16 (.len (.self "value") 16), .writeBytes (.self "value")]
      deserialize := .struct [⟨"value", [], .vec 16 256 (.num 8)⟩] }
  bytes := (2, 258)
  fields := [(true, 0, 2048)]

/-- `uavcan::register::name_1_0::Name` (canadensis_data_types/src/generated.rs L12380). -/
def t204 : Entry where
  path := "uavcan::register::name_1_0::Name"
  dsdl := "uavcan.register.Name.1.0"
  role := .message
  definition := ⟨none, false, .struct [.data "name" (.prim (.uint 8 true)) (.var 255)]⟩
  code :=
    { shape := .struct false [("name", (.vec (.unsigned 8) 255))]
      extentBytes := none
      sizeBits := .sum [.lit 8, .lenTimes (.self "name") 8 1, .lit 0]
      serialize := .seq [.writeAligned 8 (.len (.self "name") 8), .writeBytes (.self "name")]
      deserialize := .struct [⟨"name", [], .vec 8 255 (.num 8)⟩] }
  bytes := (1, 256)
  fields := [(true, 0, 2040)]

/-- `uavcan::register::value_1_0::Value` (canadensis_data_types/src/generated.rs L12433). -/
def t205 : Entry where
  path := "uavcan::register::value_1_0::Value"
  dsdl := "uavcan.register.Value.1.0"
  role := .message
  definition := ⟨none, false, .union [("Empty", (.type 164), .scalar), ("String", (.type 203), .scalar), ("Unstructured", (.type 116), .scalar), ("Bit", (.type 179), .scalar), ("Integer64", (.type 182), .scalar), ("Integer32", (.type 181), .scalar), ("Integer16", (.type 180), .scalar), ("Integer8", (.type 183), .scalar), ("Natural64", (.type 186), .scalar), ("Natural32", (.type 185), .scalar), ("Natural16", (.type 184), .scalar), ("Natural8", (.type 187), .scalar), ("Real64", (.type 190), .scalar), ("Real32", (.type 189), .scalar), ("Real16", (.type 188), .scalar)]⟩
  code :=
    { shape := .enum [("Empty", (.one (.type 164))), ("String", (.one (.type 203))), ("Unstructured", (.one (.type 116))), ("Bit", (.one (.type 179))), ("Integer64", (.one (.type 182))), ("Integer32", (.one (.type 181))), ("Integer16", (.one (.type 180))), ("Integer8", (.one (.type 183))), ("Natural64", (.one (.type 186))), ("Natural32", (.one (.type 185))), ("Natural16", (.one (.type 184))), ("Natural8", (.one (.type 187))), ("Real64", (.one (.type 190))), ("Real32", (.one (.type 189))), ("Real16", (.one (.type 188)))]
      extentBytes := none
      sizeBits := .matchSelf 8 [("Empty", [.lit 0]), ("String", [.sizeOf .inner 8]), ("Unstructured", [.sizeOf .inner 8]), ("Bit", [.sizeOf .inner 8]), ("Integer64", [.sizeOf .inner 8]), ("Integer32", [.sizeOf .inner 8]), ("Integer16", [.sizeOf .inner 8]), ("Integer8", [.sizeOf .inner 8]), ("Natural64", [.sizeOf .inner 8]), ("Natural32", [.sizeOf .inner 8]), ("Natural16", [.sizeOf .inner 8]), ("Natural8", [.sizeOf .inner 8]), ("Real64", [.sizeOf .inner 8]), ("Real32", [.sizeOf .inner 8]), ("Real16", [.sizeOf .inner 8])]
      serialize := .matchSelf [("Empty", [.writeAligned 8 (.lit 0), .writeComposite .inner]), ("String", [.writeAligned 8 (.lit 1), .writeComposite .inner]), ("Unstructured", [.writeAligned 8 (.lit 2), .writeComposite .inner]), ("Bit", [.writeAligned 8 (.lit 3), .writeComposite .inner]), ("Integer64", [.writeAligned 8 (.lit 4), .writeComposite .inner]), ("Integer32", [.writeAligned 8 (.lit 5), .writeComposite .inner]), ("Integer16", [.writeAligned 8 (.lit 6), .writeComposite .inner]), ("Integer8", [.writeAligned 8 (.lit 7), .writeComposite .inner]), ("Natural64", [.writeAligned 8 (.lit 8), .writeComposite .inner]), ("Natural32", [.writeAligned 8 (.lit 9), .writeComposite .inner]), ("Natural16", [.writeAligned 8 (.lit 10), .writeComposite .inner]), ("Natural8", [.writeAligned 8 (.lit 11), .writeComposite .inner]), ("Real64", [.writeAligned 8 (.lit 12), .writeComposite .inner]), ("Real32", [.writeAligned 8 (.lit 13), .writeComposite .inner]), ("Real16", [.writeAligned 8 (.lit 14), .writeComposite .inner])]
      deserialize := .matchTag 8 [(0, "Empty", .one .composite), (1, "String", .one .composite), (2, "Unstructured", .one .composite), (3, "Bit", .one .composite), (4, "Integer64", .one .composite), (5, "Integer32", .one .composite), (6, "Integer16", .one .composite), (7, "Integer8", .one .composite), (8, "Natural64", .one .composite), (9, "Natural32", .one .composite), (10, "Natural16", .one .composite), (11, "Natural8", .one .composite), (12, "Real64", .one .composite), (13, "Real32", .one .composite), (14, "Real16", .one .composite)] }
  bytes := (1, 259)
  fields := []

/-- `uavcan::register::access_1_0::AccessRequest` (canadensis_data_types/src/generated.rs L12137). -/
def t206 : Entry where
  path := "uavcan::register::access_1_0::AccessRequest"
  dsdl := "uavcan.register.Access.1.0"
  role := .request
  definition := ⟨none, true, .struct [.data "name" (.type 204) .scalar, .data "value" (.type 205) .scalar]⟩
  code :=
    { shape := .struct false [("name", (.one (.type 204))), ("value", (.one (.type 205)))]
      extentBytes := none
      sizeBits := .sum [.sizeOf (.self "name") 8, .sizeOf (.self "value") 8, .lit 0]
      serialize := .seq [.writeComposite (.self "name"), .writeComposite (.self "value")]
      deserialize := .struct [⟨"name", [], .one .composite⟩, ⟨"value", [], .one .composite⟩] }
  bytes := (2, 515)
  fields := [(true, 8, 2048), (true, 8, 2072)]

/-- `uavcan::register::access_1_0::AccessResponse` (canadensis_data_types/src/generated.rs L12198). -/
def t207 : Entry where
  path := "uavcan::register::access_1_0::AccessResponse"
  dsdl := "uavcan.register.Access.1.0"
  role := .response
  definition := ⟨none, false, .struct [.data "timestamp" (.type 10) .scalar, .data "mutable" (.prim .boolean) .scalar, .data "persistent" (.prim .boolean) .scalar, .padding 6, .data "value" (.type 205) .scalar]⟩
  code :=
    { shape := .struct false [("timestamp", (.one (.type 10))), ("mutable", (.one .bool)), ("persistent", (.one .bool)), ("value", (.one (.type 205)))]
      extentBytes := none
      sizeBits := .sum [.lit 56, .lit 1, .lit 1, .lit 6, .sizeOf (.self "value") 8, .lit 0]
      serialize := .seq [.writeComposite (.self "timestamp"), .writeBool (.self "mutable"), .writeBool (.self "persistent"), .skip 6, .writeComposite (.self "value")]
      deserialize := .struct [⟨"timestamp", [], .one .composite⟩, ⟨"mutable", [], .one .bool⟩, ⟨"persistent", [], .one .bool⟩, ⟨"value", [6], .one .composite⟩] }
  bytes := (9, 267)
  fields := [(true, 56, 56), (true, 1, 1), (false, 1, 1), (true, 8, 2072)]

/-- `uavcan::register::list_1_0::ListRequest` (canadensis_data_types/src/generated.rs L12288). -/
def t208 : Entry where
  path := "uavcan::register::list_1_0::ListRequest"
  dsdl := "uavcan.register.List.1.0"
  role := .request
  definition := ⟨none, true, .struct [.data "index" (.prim (.uint 16 true)) .scalar]⟩
  code :=
    { shape := .struct true [("index", (.one (.unsigned 16)))]
      extentBytes := none
      sizeBits := .sum [.lit 16]
      serialize := .seq [.alignedBytes]
      deserialize := .zeroCopy }
  bytes := (2, 2)
  fields := [(true, 16, 16)]

/-- `uavcan::register::list_1_0::ListResponse` (canadensis_data_types/src/generated.rs L12336). -/
def t209 : Entry where
  path := "uavcan::register::list_1_0::ListResponse"
  dsdl := "uavcan.register.List.1.0"
  role := .response
  definition := ⟨none, false, .struct [.data "name" (.type 204) .scalar]⟩
  code :=
    { shape := .struct false [("name", (.one (.type 204)))]
      extentBytes := none
      sizeBits := .sum [.sizeOf (.self "name") 8, .lit 0]
      serialize := .seq [.writeComposite (.self "name")]
      deserialize := .struct [⟨"name", [], .one .composite⟩] }
  bytes := (1, 256)
  fields := [(true, 8, 2048)]

/-- `uavcan::si::sample::acceleration::scalar_1_0::Scalar` (canadensis_data_types/src/generated.rs L12636). -/
def t210 : Entry where
  path := "uavcan::si::sample::acceleration::scalar_1_0::Scalar"
  dsdl := "uavcan.si.sample.acceleration.Scalar.1.0"
  role := .message
  definition := ⟨none, false, .struct [.data "timestamp" (.type 10) .scalar, .data "meter_per_second_per_second" (.prim .float32) .scalar]⟩
  code :=
    { shape := .struct false [("timestamp", (.one (.type 10))), ("meter_per_second_per_second", (.one .f32))]
      extentBytes := none
      sizeBits := .sum [.lit 88]
      serialize := .seq [.writeComposite (.self "timestamp"), .writeF32 (.self "meter_per_second_per_second")]
      deserialize := .struct [⟨"timestamp", [], .one .composite⟩, ⟨"meter_per_second_per_second", [], .one .f32⟩] }
  bytes := (11, 11)
  fields := [(true, 56, 56), (true, 32, 32)]

/-- `uavcan::si::sample::acceleration::vector3_1_0::Vector3` (canadensis_data_types/src/generated.rs L12685). -/
def t211 : Entry where
  path := "uavcan::si::sample::acceleration::vector3_1_0::Vector3"
  dsdl := "uavcan.si.sample.acceleration.Vector3.1.0"
  role := .message
  definition := ⟨none, false, .struct [.data "timestamp" (.type 10) .scalar, .data "meter_per_second_per_second" (.prim .float32) (.fixed 3)]⟩
  code :=
    { shape := .struct false [("timestamp", (.one (.type 10))), ("meter_per_second_per_second", (.array .f32 3))]
      extentBytes := none
      sizeBits := .sum [.lit 152]
      serialize := .seq [.writeComposite (.self "timestamp"), .forEach (.self "meter_per_second_per_second") (.writeF32 .value)]
      deserialize := .struct [⟨"timestamp", [], .one .composite⟩, ⟨"meter_per_second_per_second", [], .array (List.replicate 3 .f32)⟩] }
  bytes := (19, 19)
  fields := [(true, 56, 56), (true, 96, 96)]

/-- `uavcan::si::sample::angle::narrow_scalar_1_0::NarrowScalar` (canadensis_data_types/src/generated.rs L12740). -/
def t212 : Entry where
  path := "uavcan::si::sample::angle::narrow_scalar_1_0::NarrowScalar"
  dsdl := "uavcan.si.sample.angle.NarrowScalar.1.0"
  role := .message
  definition := ⟨none, false, .struct [.data "timestamp" (.type 10) .scalar, .data "radian" (.prim .float16) .scalar]⟩
  code :=
    { shape := .struct false [("timestamp", (.one (.type 10))), ("radian", (.one .f16))]
      extentBytes := none
      sizeBits := .sum [.lit 72]
      serialize := .seq [.writeComposite (.self "timestamp"), .writeF16 (.self "radian")]
      deserialize := .struct [⟨"timestamp", [], .one .composite⟩, ⟨"radian", [], .one .f16⟩] }
  bytes := (9, 9)
  fields := [(true, 56, 56), (true, 16, 16)]

/-- `uavcan::si::sample::angle::narrow_vector3_1_0::NarrowVector3` (canadensis_data_types/src/generated.rs L12789). -/
def t213 : Entry where
  path := "uavcan::si::sample::angle::narrow_vector3_1_0::NarrowVector3"
  dsdl := "uavcan.si.sample.angle.NarrowVector3.1.0"
  role := .message
  definition := ⟨none, false, .struct [.data "timestamp" (.type 10) .scalar, .data "radian" (.prim .float16) (.fixed 3)]⟩
  code :=
    { shape := .struct false [("timestamp", (.one (.type 10))), ("radian", (.array .f16 3))]
      extentBytes := none
      sizeBits := .sum [.lit 104]
      serialize := .seq [.writeComposite (.self "timestamp"), .forEach (.self "radian") (.writeF16 .value)]
      deserialize := .struct [⟨"timestamp", [], .one .composite⟩, ⟨"radian", [], .array (List.replicate 3 .f16)⟩] }
  bytes := (13, 13)
  fields := [(true, 56, 56), (true, 48, 48)]

/-- `uavcan::si::sample::angle::quaternion_1_0::Quaternion` (canadensis_data_types/src/generated.rs L12842). -/
def t214 : Entry where
  path := "uavcan::si::sample::angle::quaternion_1_0::Quaternion"
  dsdl := "uavcan.si.sample.angle.Quaternion.1.0"
  role := .message
  definition := ⟨none, false, .struct [.data "timestamp" (.type 10) .scalar, .data "wxyz" (.prim .float32) (.fixed 4)]⟩
  code :=
    { shape := .struct false [("timestamp", (.one (.type 10))), ("wxyz", (.array .f32 4))]
      extentBytes := none
      sizeBits := .sum [.lit 184]
      serialize := .seq [.writeComposite (.self "timestamp"), .forEach (.self "wxyz") (.writeF32 .value)]
      deserialize := .struct [⟨"timestamp", [], .one .composite⟩, ⟨"wxyz", [], .array (List.replicate 4 .f32)⟩] }
  bytes := (23, 23)
  fields := [(true, 56, 56), (true, 128, 128)]

/-- `uavcan::si::sample::angle::scalar_1_0::Scalar` (canadensis_data_types/src/generated.rs L12900). -/
def t215 : Entry where
  path := "uavcan::si::sample::angle::scalar_1_0::Scalar"
  dsdl := "uavcan.si.sample.angle.Scalar.1.0"
  role := .message
  definition := ⟨none, false, .struct [.data "timestamp" (.type 10) .scalar, .data "radian" (.prim .float32) .scalar]⟩
  code :=
    { shape := .struct false [("timestamp", (.one (.type 10))), ("radian", (.one .f32))]
      extentBytes := none
      sizeBits := .sum [.lit 88]
      serialize := .seq [.writeComposite (.self "timestamp"), .writeF32 (.self "radian")]
      deserialize := .struct [⟨"timestamp", [], .one .composite⟩, ⟨"radian", [], .one .f32⟩] }
  bytes := (11, 11)
  fields := [(true, 56, 56), (true, 32, 32)]

/-- `uavcan::si::sample::angle::vector3_1_0::Vector3` (canadensis_data_types/src/generated.rs L12949). -/
def t216 : Entry where
  path := "uavcan::si::sample::angle::vector3_1_0::Vector3"
  dsdl := "uavcan.si.sample.angle.Vector3.1.0"
  role := .message
  definition := ⟨none, false, .struct [.data "timestamp" (.type 10) .scalar, .data "radian" (.prim .float32) (.fixed 3)]⟩
  code :=
    { shape := .struct false [("timestamp", (.one (.type 10))), ("radian", (.array .f32 3))]
      extentBytes := none
      sizeBits := .sum [.lit 152]
      serialize := .seq [.writeComposite (.self "timestamp"), .forEach (.self "radian") (.writeF32 .value)]
      deserialize := .struct [⟨"timestamp", [], .one .composite⟩, ⟨"radian", [], .array (List.replicate 3 .f32)⟩] }
  bytes := (19, 19)
  fields := [(true, 56, 56), (true, 96, 96)]

/-- `uavcan::si::sample::angle::wide_scalar_1_0::WideScalar` (canadensis_data_types/src/generated.rs L13002). -/
def t217 : Entry where
  path := "uavcan::si::sample::angle::wide_scalar_1_0::WideScalar"
  dsdl := "uavcan.si.sample.angle.WideScalar.1.0"
  role := .message
  definition := ⟨none, false, .struct [.data "timestamp" (.type 10) .scalar, .data "radian" (.prim .float64) .scalar]⟩
  code :=
    { shape := .struct false [("timestamp", (.one (.type 10))), ("radian", (.one .f64))]
      extentBytes := none
      sizeBits := .sum [.lit 120]
      serialize := .seq [.writeComposite (.self "timestamp"), .writeF64 (.self "radian")]
      deserialize := .struct [⟨"timestamp", [], .one .composite⟩, ⟨"radian", [], .one .f64⟩] }
  bytes := (15, 15)
  fields := [(true, 56, 56), (true, 64, 64)]

/-- `uavcan::si::sample::angle::wide_vector3_1_0::WideVector3` (canadensis_data_types/src/generated.rs L13051). -/
def t218 : Entry where
  path := "uavcan::si::sample::angle::wide_vector3_1_0::WideVector3"
  dsdl := "uavcan.si.sample.angle.WideVector3.1.0"
  role := .message
  definition := ⟨none, false, .struct [.data "timestamp" (.type 10) .scalar, .data "radian" (.prim .float64) (.fixed 3)]⟩
  code :=
    { shape := .struct false [("timestamp", (.one (.type 10))), ("radian", (.array .f64 3))]
      extentBytes := none
      sizeBits := .sum [.lit 248]
      serialize := .seq [.writeComposite (.self "timestamp"), .forEach (.self "radian") (.writeF64 .value)]
      deserialize := .struct [⟨"timestamp", [], .one .composite⟩, ⟨"radian", [], .array (List.replicate 3 .f64)⟩] }
  bytes := (31, 31)
  fields := [(true, 56, 56), (true, 192, 192)]

/-- `uavcan::si::sample::angular_acceleration::scalar_1_0::Scalar` (canadensis_data_types/src/generated.rs L13106). -/
def t219 : Entry where
  path := "uavcan::si::sample::angular_acceleration::scalar_1_0::Scalar"
  dsdl := "uavcan.si.sample.angular_acceleration.Scalar.1.0"
  role := .message
  definition := ⟨none, false, .struct [.data "timestamp" (.type 10) .scalar, .data "radian_per_second_per_second" (.prim .float32) .scalar]⟩
  code :=
    { shape := .struct false [("timestamp", (.one (.type 10))), ("radian_per_second_per_second", (.one .f32))]
      extentBytes := none
      sizeBits := .sum [.lit 88]
      serialize := .seq [.writeComposite (.self "timestamp"), .writeF32 (.self "radian_per_second_per_second")]
      deserialize := .struct [⟨"timestamp", [], .one .composite⟩, ⟨"radian_per_second_per_second", [], .one .f32⟩] }
  bytes := (11, 11)
  fields := [(true, 56, 56), (true, 32, 32)]

/-- `uavcan::si::sample::angular_acceleration::vector3_1_0::Vector3` (canadensis_data_types/src/generated.rs L13155). -/
def t220 : Entry where
  path := "uavcan::si::sample::angular_acceleration::vector3_1_0::Vector3"
  dsdl := "uavcan.si.sample.angular_acceleration.Vector3.1.0"
  role := .message
  definition := ⟨none, false, .struct [.data "timestamp" (.type 10) .scalar, .data "radian_per_second_per_second" (.prim .float32) (.fixed 3)]⟩
  code :=
    { shape := .struct false [("timestamp", (.one (.type 10))), ("radian_per_second_per_second", (.array .f32 3))]
      extentBytes := none
      sizeBits := .sum [.lit 152]
      serialize := .seq [.writeComposite (.self "timestamp"), .forEach (.self "radian_per_second_per_second") (.writeF32 .value)]
      deserialize := .struct [⟨"timestamp", [], .one .composite⟩, ⟨"radian_per_second_per_second", [], .array (List.replicate 3 .f32)⟩] }
  bytes := (19, 19)
  fields := [(true, 56, 56), (true, 96, 96)]

/-- `uavcan::si::sample::angular_velocity::scalar_1_0::Scalar` (canadensis_data_types/src/generated.rs L13210). -/
def t221 : Entry where
  path := "uavcan::si::sample::angular_velocity::scalar_1_0::Scalar"
  dsdl := "uavcan.si.sample.angular_velocity.Scalar.1.0"
  role := .message
  definition := ⟨none, false, .struct [.data "timestamp" (.type 10) .scalar, .data "radian_per_second" (.prim .float32) .scalar]⟩
  code :=
    { shape := .struct false [("timestamp", (.one (.type 10))), ("radian_per_second", (.one .f32))]
      extentBytes := none
      sizeBits := .sum [.lit 88]
      serialize := .seq [.writeComposite (.self "timestamp"), .writeF32 (.self "radian_per_second")]
      deserialize := .struct [⟨"timestamp", [], .one .composite⟩, ⟨"radian_per_second", [], .one .f32⟩] }
  bytes := (11, 11)
  fields := [(true, 56, 56), (true, 32, 32)]

/-- `uavcan::si::sample::angular_velocity::vector3_1_0::Vector3` (canadensis_data_types/src/generated.rs L13259). -/
def t222 : Entry where
  path := "uavcan::si::sample::angular_velocity::vector3_1_0::Vector3"
  dsdl := "uavcan.si.sample.angular_velocity.Vector3.1.0"
  role := .message
  definition := ⟨none, false, .struct [.data "timestamp" (.type 10) .scalar, .data "radian_per_second" (.prim .float32) (.fixed 3)]⟩
  code :=
    { shape := .struct false [("timestamp", (.one (.type 10))), ("radian_per_second", (.array .f32 3))]
      extentBytes := none
      sizeBits := .sum [.lit 152]
      serialize := .seq [.writeComposite (.self "timestamp"), .forEach (.self "radian_per_second") (.writeF32 .value)]
      deserialize := .struct [⟨"timestamp", [], .one .composite⟩, ⟨"radian_per_second", [], .array (List.replicate 3 .f32)⟩] }
  bytes := (19, 19)
  fields := [(true, 56, 56), (true, 96, 96)]

/-- `uavcan::si::sample::duration::scalar_1_0::Scalar` (canadensis_data_types/src/generated.rs L13314). -/
def t223 : Entry where
  path := "uavcan::si::sample::duration::scalar_1_0::Scalar"
  dsdl := "uavcan.si.sample.duration.Scalar.1.0"
  role := .message
  definition := ⟨none, false, .struct [.data "timestamp" (.type 10) .scalar, .data "second" (.prim .float32) .scalar]⟩
  code :=
    { shape := .struct false [("timestamp", (.one (.type 10))), ("second", (.one .f32))]
      extentBytes := none
      sizeBits := .sum [.lit 88]
      serialize := .seq [.writeComposite (.self "timestamp"), .writeF32 (.self "second")]
      deserialize := .struct [⟨"timestamp", [], .one .composite⟩, ⟨"second", [], .one .f32⟩] }
  bytes := (11, 11)
  fields := [(true, 56, 56), (true, 32, 32)]

/-- `uavcan::si::sample::duration::wide_scalar_1_0::WideScalar` (canadensis_data_types/src/generated.rs L13363). -/
def t224 : Entry where
  path := "uavcan::si::sample::duration::wide_scalar_1_0::WideScalar"
  dsdl := "uavcan.si.sample.duration.WideScalar.1.0"
  role := .message
  definition := ⟨none, false, .struct [.data "timestamp" (.type 10) .scalar, .data "second" (.prim .float64) .scalar]⟩
  code :=
    { shape := .struct false [("timestamp", (.one (.type 10))), ("second", (.one .f64))]
      extentBytes := none
      sizeBits := .sum [.lit 120]
      serialize := .seq [.writeComposite (.self "timestamp"), .writeF64 (.self "second")]
      deserialize := .struct [⟨"timestamp", [], .one .composite⟩, ⟨"second", [], .one .f64⟩] }
  bytes := (15, 15)
  fields := [(true, 56, 56), (true, 64, 64)]

/-- `uavcan::si::sample::electric_charge::scalar_1_0::Scalar` (canadensis_data_types/src/generated.rs L13414). -/
def t225 : Entry where
  path := "uavcan::si::sample::electric_charge::scalar_1_0::Scalar"
  dsdl := "uavcan.si.sample.electric_charge.Scalar.1.0"
  role := .message
  definition := ⟨none, false, .struct [.data "timestamp" (.type 10) .scalar, .data "coulomb" (.prim .float32) .scalar]⟩
  code :=
    { shape := .struct false [("timestamp", (.one (.type 10))), ("coulomb", (.one .f32))]
      extentBytes := none
      sizeBits := .sum [.lit 88]
      serialize := .seq [.writeComposite (.self "timestamp"), .writeF32 (.self "coulomb")]
      deserialize := .struct [⟨"timestamp", [], .one .composite⟩, ⟨"coulomb", [], .one .f32⟩] }
  bytes := (11, 11)
  fields := [(true, 56, 56), (true, 32, 32)]

/-- `uavcan::si::sample::electric_current::scalar_1_0::Scalar` (canadensis_data_types/src/generated.rs L13465). -/
def t226 : Entry where
  path := "uavcan::si::sample::electric_current::scalar_1_0::Scalar"
  dsdl := "uavcan.si.sample.electric_current.Scalar.1.0"
  role := .message
  definition := ⟨none, false, .struct [.data "timestamp" (.type 10) .scalar, .data "ampere" (.prim .float32) .scalar]⟩
  code :=
    { shape := .struct false [("timestamp", (.one (.type 10))), ("ampere", (.one .f32))]
      extentBytes := none
      sizeBits := .sum [.lit 88]
      serialize := .seq [.writeComposite (.self "timestamp"), .writeF32 (.self "ampere")]
      deserialize := .struct [⟨"timestamp", [], .one .composite⟩, ⟨"ampere", [], .one .f32⟩] }
  bytes := (11, 11)
  fields := [(true, 56, 56), (true, 32, 32)]

/-- `uavcan::si::sample::energy::scalar_1_0::Scalar` (canadensis_data_types/src/generated.rs L13516). -/
def t227 : Entry where
  path := "uavcan::si::sample::energy::scalar_1_0::Scalar"
  dsdl := "uavcan.si.sample.energy.Scalar.1.0"
  role := .message
  definition := ⟨none, false, .struct [.data "timestamp" (.type 10) .scalar, .data "joule" (.prim .float32) .scalar]⟩
  code :=
    { shape := .struct false [("timestamp", (.one (.type 10))), ("joule", (.one .f32))]
      extentBytes := none
      sizeBits := .sum [.lit 88]
      serialize := .seq [.writeComposite (.self "timestamp"), .writeF32 (.self "joule")]
      deserialize := .struct [⟨"timestamp", [], .one .composite⟩, ⟨"joule", [], .one .f32⟩] }
  bytes := (11, 11)
  fields := [(true, 56, 56), (true, 32, 32)]

/-- `uavcan::si::sample::force::scalar_1_0::Scalar` (canadensis_data_types/src/generated.rs L13567). -/
def t228 : Entry where
  path := "uavcan::si::sample::force::scalar_1_0::Scalar"
  dsdl := "uavcan.si.sample.force.Scalar.1.0"
  role := .message
  definition := ⟨none, false, .struct [.data "timestamp" (.type 10) .scalar, .data "newton" (.prim .float32) .scalar]⟩
  code :=
    { shape := .struct false [("timestamp", (.one (.type 10))), ("newton", (.one .f32))]
      extentBytes := none
      sizeBits := .sum [.lit 88]
      serialize := .seq [.writeComposite (.self "timestamp"), .writeF32 (.self "newton")]
      deserialize := .struct [⟨"timestamp", [], .one .composite⟩, ⟨"newton", [], .one .f32⟩] }
  bytes := (11, 11)
  fields := [(true, 56, 56), (true, 32, 32)]

/-- `uavcan::si::sample::force::vector3_1_0::Vector3` (canadensis_data_types/src/generated.rs L13616). -/
def t229 : Entry where
  path := "uavcan::si::sample::force::vector3_1_0::Vector3"
  dsdl := "uavcan.si.sample.force.Vector3.1.0"
  role := .message
  definition := ⟨none, false, .struct [.data "timestamp" (.type 10) .scalar, .data "newton" (.prim .float32) (.fixed 3)]⟩
  code :=
    { shape := .struct false [("timestamp", (.one (.type 10))), ("newton", (.array .f32 3))]
      extentBytes := none
      sizeBits := .sum [.lit 152]
      serialize := .seq [.writeComposite (.self "timestamp"), .forEach (.self "newton") (.writeF32 .value)]
      deserialize := .struct [⟨"timestamp", [], .one .composite⟩, ⟨"newton", [], .array (List.replicate 3 .f32)⟩] }
  bytes := (19, 19)
  fields := [(true, 56, 56), (true, 96, 96)]

/-- `uavcan::si::sample::frequency::scalar_1_0::Scalar` (canadensis_data_types/src/generated.rs L13671). -/
def t230 : Entry where
  path := "uavcan::si::sample::frequency::scalar_1_0::Scalar"
  dsdl := "uavcan.si.sample.frequency.Scalar.1.0"
  role := .message
  definition := ⟨none, false, .struct [.data "timestamp" (.type 10) .scalar, .data "hertz" (.prim .float32) .scalar]⟩
  code :=
    { shape := .struct false [("timestamp", (.one (.type 10))), ("hertz", (.one .f32))]
      extentBytes := none
      sizeBits := .sum [.lit 88]
      serialize := .seq [.writeComposite (.self "timestamp"), .writeF32 (.self "hertz")]
      deserialize := .struct [⟨"timestamp", [], .one .composite⟩, ⟨"hertz", [], .one .f32⟩] }
  bytes := (11, 11)
  fields := [(true, 56, 56), (true, 32, 32)]

/-- `uavcan::si::sample::length::narrow_scalar_1_0::NarrowScalar` (canadensis_data_types/src/generated.rs L13722). -/
def t231 : Entry where
  path := "uavcan::si::sample::length::narrow_scalar_1_0::NarrowScalar"
  dsdl := "uavcan.si.sample.length.NarrowScalar.1.0"
  role := .message
  definition := ⟨none, false, .struct [.data "timestamp" (.type 10) .scalar, .data "meter" (.prim .float16) .scalar]⟩
  code :=
    { shape := .struct false [("timestamp", (.one (.type 10))), ("meter", (.one .f16))]
      extentBytes := none
      sizeBits := .sum [.lit 72]
      serialize := .seq [.writeComposite (.self "timestamp"), .writeF16 (.self "meter")]
      deserialize := .struct [⟨"timestamp", [], .one .composite⟩, ⟨"meter", [], .one .f16⟩] }
  bytes := (9, 9)
  fields := [(true, 56, 56), (true, 16, 16)]

/-- `uavcan::si::sample::length::narrow_vector3_1_0::NarrowVector3` (canadensis_data_types/src/generated.rs L13771). -/
def t232 : Entry where
  path := "uavcan::si::sample::length::narrow_vector3_1_0::NarrowVector3"
  dsdl := "uavcan.si.sample.length.NarrowVector3.1.0"
  role := .message
  definition := ⟨none, false, .struct [.data "timestamp" (.type 10) .scalar, .data "meter" (.prim .float16) (.fixed 3)]⟩
  code :=
    { shape := .struct false [("timestamp", (.one (.type 10))), ("meter", (.array .f16 3))]
      extentBytes := none
      sizeBits := .sum [.lit 104]
      serialize := .seq [.writeComposite (.self "timestamp"), .forEach (.self "meter") (.writeF16 .value)]
      deserialize := .struct [⟨"timestamp", [], .one .composite⟩, ⟨"meter", [], .array (List.replicate 3 .f16)⟩] }
  bytes := (13, 13)
  fields := [(true, 56, 56), (true, 48, 48)]

/-- `uavcan::si::sample::length::scalar_1_0::Scalar` (canadensis_data_types/src/generated.rs L13824). -/
def t233 : Entry where
  path := "uavcan::si::sample::length::scalar_1_0::Scalar"
  dsdl := "uavcan.si.sample.length.Scalar.1.0"
  role := .message
  definition := ⟨none, false, .struct [.data "timestamp" (.type 10) .scalar, .data "meter" (.prim .float32) .scalar]⟩
  code :=
    { shape := .struct false [("timestamp", (.one (.type 10))), ("meter", (.one .f32))]
      extentBytes := none
      sizeBits := .sum [.lit 88]
      serialize := .seq [.writeComposite (.self "timestamp"), .writeF32 (.self "meter")]
      deserialize := .struct [⟨"timestamp", [], .one .composite⟩, ⟨"meter", [], .one .f32⟩] }
  bytes := (11, 11)
  fields := [(true, 56, 56), (true, 32, 32)]

/-- `uavcan::si::sample::length::vector3_1_0::Vector3` (canadensis_data_types/src/generated.rs L13873). -/
def t234 : Entry where
  path := "uavcan::si::sample::length::vector3_1_0::Vector3"
  dsdl := "uavcan.si.sample.length.Vector3.1.0"
  role := .message
  definition := ⟨none, false, .struct [.data "timestamp" (.type 10) .scalar, .data "meter" (.prim .float32) (.fixed 3)]⟩
  code :=
    { shape := .struct false [("timestamp", (.one (.type 10))), ("meter", (.array .f32 3))]
      extentBytes := none
      sizeBits := .sum [.lit 152]
      serialize := .seq [.writeComposite (.self "timestamp"), .forEach (.self "meter") (.writeF32 .value)]
      deserialize := .struct [⟨"timestamp", [], .one .composite⟩, ⟨"meter", [], .array (List.replicate 3 .f32)⟩] }
  bytes := (19, 19)
  fields := [(true, 56, 56), (true, 96, 96)]

/-- `uavcan::si::sample::length::wide_scalar_1_0::WideScalar` (canadensis_data_types/src/generated.rs L13926). -/
def t235 : Entry where
  path := "uavcan::si::sample::length::wide_scalar_1_0::WideScalar"
  dsdl := "uavcan.si.sample.length.WideScalar.1.0"
  role := .message
  definition := ⟨none, false, .struct [.data "timestamp" (.type 10) .scalar, .data "meter" (.prim .float64) .scalar]⟩
  code :=
    { shape := .struct false [("timestamp", (.one (.type 10))), ("meter", (.one .f64))]
      extentBytes := none
      sizeBits := .sum [.lit 120]
      serialize := .seq [.writeComposite (.self "timestamp"), .writeF64 (.self "meter")]
      deserialize := .struct [⟨"timestamp", [], .one .composite⟩, ⟨"meter", [], .one .f64⟩] }
  bytes := (15, 15)
  fields := [(true, 56, 56), (true, 64, 64)]

/-- `uavcan::si::sample::length::wide_vector3_1_0::WideVector3` (canadensis_data_types/src/generated.rs L13975). -/
def t236 : Entry where
  path := "uavcan::si::sample::length::wide_vector3_1_0::WideVector3"
  dsdl := "uavcan.si.sample.length.WideVector3.1.0"
  role := .message
  definition := ⟨none, false, .struct [.data "timestamp" (.type 10) .scalar, .data "meter" (.prim .float64) (.fixed 3)]⟩
  code :=
    { shape := .struct false [("timestamp", (.one (.type 10))), ("meter", (.array .f64 3))]
      extentBytes := none
      sizeBits := .sum [.lit 248]
      serialize := .seq [.writeComposite (.self "timestamp"), .forEach (.self "meter") (.writeF64 .value)]
      deserialize := .struct [⟨"timestamp", [], .one .composite⟩, ⟨"meter", [], .array (List.replicate 3 .f64)⟩] }
  bytes := (31, 31)
  fields := [(true, 56, 56), (true, 192, 192)]

/-- `uavcan::si::sample::luminance::scalar_1_0::Scalar` (canadensis_data_types/src/generated.rs L14030). -/
def t237 : Entry where
  path := "uavcan::si::sample::luminance::scalar_1_0::Scalar"
  dsdl := "uavcan.si.sample.luminance.Scalar.1.0"
  role := .message
  definition := ⟨none, false, .struct [.data "timestamp" (.type 10) .scalar, .data "candela_per_square_meter" (.prim .float32) .scalar]⟩
  code :=
    { shape := .struct false [("timestamp", (.one (.type 10))), ("candela_per_square_meter", (.one .f32))]
      extentBytes := none
      sizeBits := .sum [.lit 88]
      serialize := .seq [.writeComposite (.self "timestamp"), .writeF32 (.self "candela_per_square_meter")]
      deserialize := .struct [⟨"timestamp", [], .one .composite⟩, ⟨"candela_per_square_meter", [], .one .f32⟩] }
  bytes := (11, 11)
  fields := [(true, 56, 56), (true, 32, 32)]

/-- `uavcan::si::sample::magnetic_field_strength::scalar_1_0::Scalar` (canadensis_data_types/src/generated.rs L14083). -/
def t238 : Entry where
  path := "uavcan::si::sample::magnetic_field_strength::scalar_1_0::Scalar"
  dsdl := "uavcan.si.sample.magnetic_field_strength.Scalar.1.0"
  role := .message
  definition := ⟨none, false, .struct [.data "timestamp" (.type 10) .scalar, .data "tesla" (.prim .float32) .scalar]⟩
  code :=
    { shape := .struct false [("timestamp", (.one (.type 10))), ("tesla", (.one .f32))]
      extentBytes := none
      sizeBits := .sum [.lit 88]
      serialize := .seq [.writeComposite (.self "timestamp"), .writeF32 (.self "tesla")]
      deserialize := .struct [⟨"timestamp", [], .one .composite⟩, ⟨"tesla", [], .one .f32⟩] }
  bytes := (11, 11)
  fields := [(true, 56, 56), (true, 32, 32)]

/-- `uavcan::si::sample::magnetic_field_strength::scalar_1_1::Scalar` (canadensis_data_types/src/generated.rs L14137). -/
def t239 : Entry where
  path := "uavcan::si::sample::magnetic_field_strength::scalar_1_1::Scalar"
  dsdl := "uavcan.si.sample.magnetic_field_strength.Scalar.1.1"
  role := .message
  definition := ⟨none, false, .struct [.data "timestamp" (.type 10) .scalar, .data "ampere_per_meter" (.prim .float32) .scalar]⟩
  code :=
    { shape := .struct false [("timestamp", (.one (.type 10))), ("ampere_per_meter", (.one .f32))]
      extentBytes := none
      sizeBits := .sum [.lit 88]
      serialize := .seq [.writeComposite (.self "timestamp"), .writeF32 (.self "ampere_per_meter")]
      deserialize := .struct [⟨"timestamp", [], .one .composite⟩, ⟨"ampere_per_meter", [], .one .f32⟩] }
  bytes := (11, 11)
  fields := [(true, 56, 56), (true, 32, 32)]

/-- `uavcan::si::sample::magnetic_field_strength::vector3_1_0::Vector3` (canadensis_data_types/src/generated.rs L14188). -/
def t240 : Entry where
  path := "uavcan::si::sample::magnetic_field_strength::vector3_1_0::Vector3"
  dsdl := "uavcan.si.sample.magnetic_field_strength.Vector3.1.0"
  role := .message
  definition := ⟨none, false, .struct [.data "timestamp" (.type 10) .scalar, .data "tesla" (.prim .float32) (.fixed 3)]⟩
  code :=
    { shape := .struct false [("timestamp", (.one (.type 10))), ("tesla", (.array .f32 3))]
      extentBytes := none
      sizeBits := .sum [.lit 152]
      serialize := .seq [.writeComposite (.self "timestamp"), .forEach (.self "tesla") (.writeF32 .value)]
      deserialize := .struct [⟨"timestamp", [], .one .composite⟩, ⟨"tesla", [], .array (List.replicate 3 .f32)⟩] }
  bytes := (19, 19)
  fields := [(true, 56, 56), (true, 96, 96)]

/-- `uavcan::si::sample::magnetic_field_strength::vector3_1_1::Vector3` (canadensis_data_types/src/generated.rs L14246). -/
def t241 : Entry where
  path := "uavcan::si::sample::magnetic_field_strength::vector3_1_1::Vector3"
  dsdl := "uavcan.si.sample.magnetic_field_strength.Vector3.1.1"
  role := .message
  definition := ⟨none, false, .struct [.data "timestamp" (.type 10) .scalar, .data "ampere_per_meter" (.prim .float32) (.fixed 3)]⟩
  code :=
    { shape := .struct false [("timestamp", (.one (.type 10))), ("ampere_per_meter", (.array .f32 3))]
      extentBytes := none
      sizeBits := .sum [.lit 152]
      serialize := .seq [.writeComposite (.self "timestamp"), .forEach (.self "ampere_per_meter") (.writeF32 .value)]
      deserialize := .struct [⟨"timestamp", [], .one .composite⟩, ⟨"ampere_per_meter", [], .array (List.replicate 3 .f32)⟩] }
  bytes := (19, 19)
  fields := [(true, 56, 56), (true, 96, 96)]

/-- `uavcan::si::sample::magnetic_flux_density::scalar_1_0::Scalar` (canadensis_data_types/src/generated.rs L14301). -/
def t242 : Entry where
  path := "uavcan::si::sample::magnetic_flux_density::scalar_1_0::Scalar"
  dsdl := "uavcan.si.sample.magnetic_flux_density.Scalar.1.0"
  role := .message
  definition := ⟨none, false, .struct [.data "timestamp" (.type 10) .scalar, .data "tesla" (.prim .float32) .scalar]⟩
  code :=
    { shape := .struct false [("timestamp", (.one (.type 10))), ("tesla", (.one .f32))]
      extentBytes := none
      sizeBits := .sum [.lit 88]
      serialize := .seq [.writeComposite (.self "timestamp"), .writeF32 (.self "tesla")]
      deserialize := .struct [⟨"timestamp", [], .one .composite⟩, ⟨"tesla", [], .one .f32⟩] }
  bytes := (11, 11)
  fields := [(true, 56, 56), (true, 32, 32)]

/-- `uavcan::si::sample::magnetic_flux_density::vector3_1_0::Vector3` (canadensis_data_types/src/generated.rs L14350). -/
def t243 : Entry where
  path := "uavcan::si::sample::magnetic_flux_density::vector3_1_0::Vector3"
  dsdl := "uavcan.si.sample.magnetic_flux_density.Vector3.1.0"
  role := .message
  definition := ⟨none, false, .struct [.data "timestamp" (.type 10) .scalar, .data "tesla" (.prim .float32) (.fixed 3)]⟩
  code :=
    { shape := .struct false [("timestamp", (.one (.type 10))), ("tesla", (.array .f32 3))]
      extentBytes := none
      sizeBits := .sum [.lit 152]
      serialize := .seq [.writeComposite (.self "timestamp"), .forEach (.self "tesla") (.writeF32 .value)]
      deserialize := .struct [⟨"timestamp", [], .one .composite⟩, ⟨"tesla", [], .array (List.replicate 3 .f32)⟩] }
  bytes := (19, 19)
  fields := [(true, 56, 56), (true, 96, 96)]

/-- `uavcan::si::sample::mass::scalar_1_0::Scalar` (canadensis_data_types/src/generated.rs L14405). -/
def t244 : Entry where
  path := "uavcan::si::sample::mass::scalar_1_0::Scalar"
  dsdl := "uavcan.si.sample.mass.Scalar.1.0"
  role := .message
  definition := ⟨none, false, .struct [.data "timestamp" (.type 10) .scalar, .data "kilogram" (.prim .float32) .scalar]⟩
  code :=
    { shape := .struct false [("timestamp", (.one (.type 10))), ("kilogram", (.one .f32))]
      extentBytes := none
      sizeBits := .sum [.lit 88]
      serialize := .seq [.writeComposite (.self "timestamp"), .writeF32 (.self "kilogram")]
      deserialize := .struct [⟨"timestamp", [], .one .composite⟩, ⟨"kilogram", [], .one .f32⟩] }
  bytes := (11, 11)
  fields := [(true, 56, 56), (true, 32, 32)]

/-- `uavcan::si::sample::power::scalar_1_0::Scalar` (canadensis_data_types/src/generated.rs L14456). -/
def t245 : Entry where
  path := "uavcan::si::sample::power::scalar_1_0::Scalar"
  dsdl := "uavcan.si.sample.power.Scalar.1.0"
  role := .message
  definition := ⟨none, false, .struct [.data "timestamp" (.type 10) .scalar, .data "watt" (.prim .float32) .scalar]⟩
  code :=
    { shape := .struct false [("timestamp", (.one (.type 10))), ("watt", (.one .f32))]
      extentBytes := none
      sizeBits := .sum [.lit 88]
      serialize := .seq [.writeComposite (.self "timestamp"), .writeF32 (.self "watt")]
      deserialize := .struct [⟨"timestamp", [], .one .composite⟩, ⟨"watt", [], .one .f32⟩] }
  bytes := (11, 11)
  fields := [(true, 56, 56), (true, 32, 32)]

/-- `uavcan::si::sample::pressure::scalar_1_0::Scalar` (canadensis_data_types/src/generated.rs L14507). -/
def t246 : Entry where
  path := "uavcan::si::sample::pressure::scalar_1_0::Scalar"
  dsdl := "uavcan.si.sample.pressure.Scalar.1.0"
  role := .message
  definition := ⟨none, false, .struct [.data "timestamp" (.type 10) .scalar, .data "pascal" (.prim .float32) .scalar]⟩
  code :=
    { shape := .struct false [("timestamp", (.one (.type 10))), ("pascal", (.one .f32))]
      extentBytes := none
      sizeBits := .sum [.lit 88]
      serialize := .seq [.writeComposite (.self "timestamp"), .writeF32 (.self "pascal")]
      deserialize := .struct [⟨"timestamp", [], .one .composite⟩, ⟨"pascal", [], .one .f32⟩] }
  bytes := (11, 11)
  fields := [(true, 56, 56), (true, 32, 32)]

/-- `uavcan::si::sample::temperature::scalar_1_0::Scalar` (canadensis_data_types/src/generated.rs L14558). -/
def t247 : Entry where
  path := "uavcan::si::sample::temperature::scalar_1_0::Scalar"
  dsdl := "uavcan.si.sample.temperature.Scalar.1.0"
  role := .message
  definition := ⟨none, false, .struct [.data "timestamp" (.type 10) .scalar, .data "kelvin" (.prim .float32) .scalar]⟩
  code :=
    { shape := .struct false [("timestamp", (.one (.type 10))), ("kelvin", (.one .f32))]
      extentBytes := none
      sizeBits := .sum [.lit 88]
      serialize := .seq [.writeComposite (.self "timestamp"), .writeF32 (.self "kelvin")]
      deserialize := .struct [⟨"timestamp", [], .one .composite⟩, ⟨"kelvin", [], .one .f32⟩] }
  bytes := (11, 11)
  fields := [(true, 56, 56), (true, 32, 32)]

/-- `uavcan::si::sample::torque::scalar_1_0::Scalar` (canadensis_data_types/src/generated.rs L14609). -/
def t248 : Entry where
  path := "uavcan::si::sample::torque::scalar_1_0::Scalar"
  dsdl := "uavcan.si.sample.torque.Scalar.1.0"
  role := .message
  definition := ⟨none, false, .struct [.data "timestamp" (.type 10) .scalar, .data "newton_meter" (.prim .float32) .scalar]⟩
  code :=
    { shape := .struct false [("timestamp", (.one (.type 10))), ("newton_meter", (.one .f32))]
      extentBytes := none
      sizeBits := .sum [.lit 88]
      serialize := .seq [.writeComposite (.self "timestamp"), .writeF32 (.self "newton_meter")]
      deserialize := .struct [⟨"timestamp", [], .one .composite⟩, ⟨"newton_meter", [], .one .f32⟩] }
  bytes := (11, 11)
  fields := [(true, 56, 56), (true, 32, 32)]

/-- `uavcan::si::sample::torque::vector3_1_0::Vector3` (canadensis_data_types/src/generated.rs L14658). -/
def t249 : Entry where
  path := "uavcan::si::sample::torque::vector3_1_0::Vector3"
  dsdl := "uavcan.si.sample.torque.Vector3.1.0"
  role := .message
  definition := ⟨none, false, .struct [.data "timestamp" (.type 10) .scalar, .data "newton_meter" (.prim .float32) (.fixed 3)]⟩
  code :=
    { shape := .struct false [("timestamp", (.one (.type 10))), ("newton_meter", (.array .f32 3))]
      extentBytes := none
      sizeBits := .sum [.lit 152]
      serialize := .seq [.writeComposite (.self "timestamp"), .forEach (.self "newton_meter") (.writeF32 .value)]
      deserialize := .struct [⟨"timestamp", [], .one .composite⟩, ⟨"newton_meter", [], .array (List.replicate 3 .f32)⟩] }
  bytes := (19, 19)
  fields := [(true, 56, 56), (true, 96, 96)]

/-- `uavcan::si::sample::voltage::scalar_1_0::Scalar` (canadensis_data_types/src/generated.rs L14817). -/
def t250 : Entry where
  path := "uavcan::si::sample::voltage::scalar_1_0::Scalar"
  dsdl := "uavcan.si.sample.voltage.Scalar.1.0"
  role := .message
  definition := ⟨none, false, .struct [.data "timestamp" (.type 10) .scalar, .data "volt" (.prim .float32) .scalar]⟩
  code :=
    { shape := .struct false [("timestamp", (.one (.type 10))), ("volt", (.one .f32))]
      extentBytes := none
      sizeBits := .sum [.lit 88]
      serialize := .seq [.writeComposite (.self "timestamp"), .writeF32 (.self "volt")]
      deserialize := .struct [⟨"timestamp", [], .one .composite⟩, ⟨"volt", [], .one .f32⟩] }
  bytes := (11, 11)
  fields := [(true, 56, 56), (true, 32, 32)]

/-- `uavcan::si::sample::volume::scalar_1_0::Scalar` (canadensis_data_types/src/generated.rs L14868). -/
def t251 : Entry where
  path := "uavcan::si::sample::volume::scalar_1_0::Scalar"
  dsdl := "uavcan.si.sample.volume.Scalar.1.0"
  role := .message
  definition := ⟨none, false, .struct [.data "timestamp" (.type 10) .scalar, .data "cubic_meter" (.prim .float32) .scalar]⟩
  code :=
    { shape := .struct false [("timestamp", (.one (.type 10))), ("cubic_meter", (.one .f32))]
      extentBytes := none
      sizeBits := .sum [.lit 88]
      serialize := .seq [.writeComposite (.self "timestamp"), .writeF32 (.self "cubic_meter")]
      deserialize := .struct [⟨"timestamp", [], .one .composite⟩, ⟨"cubic_meter", [], .one .f32⟩] }
  bytes := (11, 11)
  fields := [(true, 56, 56), (true, 32, 32)]

/-- `uavcan::si::sample::volumetric_flow_rate::scalar_1_0::Scalar` (canadensis_data_types/src/generated.rs L14919). -/
def t252 : Entry where
  path := "uavcan::si::sample::volumetric_flow_rate::scalar_1_0::Scalar"
  dsdl := "uavcan.si.sample.volumetric_flow_rate.Scalar.1.0"
  role := .message
  definition := ⟨none, false, .struct [.data "timestamp" (.type 10) .scalar, .data "cubic_meter_per_second" (.prim .float32) .scalar]⟩
  code :=
    { shape := .struct false [("timestamp", (.one (.type 10))), ("cubic_meter_per_second", (.one .f32))]
      extentBytes := none
      sizeBits := .sum [.lit 88]
      serialize := .seq [.writeComposite (.self "timestamp"), .writeF32 (.self "cubic_meter_per_second")]
      deserialize := .struct [⟨"timestamp", [], .one .composite⟩, ⟨"cubic_meter_per_second", [], .one .f32⟩] }
  bytes := (11, 11)
  fields := [(true, 56, 56), (true, 32, 32)]

/-- `uavcan::si::unit::acceleration::vector3_1_0::Vector3` (canadensis_data_types/src/generated.rs L15022). -/
def t253 : Entry where
  path := "uavcan::si::unit::acceleration::vector3_1_0::Vector3"
  dsdl := "uavcan.si.unit.acceleration.Vector3.1.0"
  role := .message
  definition := ⟨none, false, .struct [.data "meter_per_second_per_second" (.prim .float32) (.fixed 3)]⟩
  code :=
    { shape := .struct true [("meter_per_second_per_second", (.array .f32 3))]
      extentBytes := none
      sizeBits := .sum [.lit 96]
      serialize := .seq [.alignedBytes]
      deserialize := .zeroCopy }
  bytes := (12, 12)
  fields := [(true, 96, 96)]

/-- `uavcan::si::unit::angle::narrow_scalar_1_0::NarrowScalar` (canadensis_data_types/src/generated.rs L15074). -/
def t254 : Entry where
  path := "uavcan::si::unit::angle::narrow_scalar_1_0::NarrowScalar"
  dsdl := "uavcan.si.unit.angle.NarrowScalar.1.0"
  role := .message
  definition := ⟨none, false, .struct [.data "radian" (.prim .float16) .scalar]⟩
  code :=
    { shape := .struct true [("radian", (.one .f16))]
      extentBytes := none
      sizeBits := .sum [.lit 16]
      serialize := .seq [.alignedBytes]
      deserialize := .zeroCopy }
  bytes := (2, 2)
  fields := [(true, 16, 16)]

/-- `uavcan::si::unit::angle::narrow_vector3_1_0::NarrowVector3` (canadensis_data_types/src/generated.rs L15121). -/
def t255 : Entry where
  path := "uavcan::si::unit::angle::narrow_vector3_1_0::NarrowVector3"
  dsdl := "uavcan.si.unit.angle.NarrowVector3.1.0"
  role := .message
  definition := ⟨none, false, .struct [.data "radian" (.prim .float16) (.fixed 3)]⟩
  code :=
    { shape := .struct true [("radian", (.array .f16 3))]
      extentBytes := none
      sizeBits := .sum [.lit 48]
      serialize := .seq [.alignedBytes]
      deserialize := .zeroCopy }
  bytes := (6, 6)
  fields := [(true, 48, 48)]

/-- `uavcan::si::unit::angle::vector3_1_0::Vector3` (canadensis_data_types/src/generated.rs L15262). -/
def t256 : Entry where
  path := "uavcan::si::unit::angle::vector3_1_0::Vector3"
  dsdl := "uavcan.si.unit.angle.Vector3.1.0"
  role := .message
  definition := ⟨none, false, .struct [.data "radian" (.prim .float32) (.fixed 3)]⟩
  code :=
    { shape := .struct true [("radian", (.array .f32 3))]
      extentBytes := none
      sizeBits := .sum [.lit 96]
      serialize := .seq [.alignedBytes]
      deserialize := .zeroCopy }
  bytes := (12, 12)
  fields := [(true, 96, 96)]

/-- `uavcan::si::unit::angle::wide_scalar_1_0::WideScalar` (canadensis_data_types/src/generated.rs L15309). -/
def t257 : Entry where
  path := "uavcan::si::unit::angle::wide_scalar_1_0::WideScalar"
  dsdl := "uavcan.si.unit.angle.WideScalar.1.0"
  role := .message
  definition := ⟨none, false, .struct [.data "radian" (.prim .float64) .scalar]⟩
  code :=
    { shape := .struct true [("radian", (.one .f64))]
      extentBytes := none
      sizeBits := .sum [.lit 64]
      serialize := .seq [.alignedBytes]
      deserialize := .zeroCopy }
  bytes := (8, 8)
  fields := [(true, 64, 64)]

/-- `uavcan::si::unit::angle::wide_vector3_1_0::WideVector3` (canadensis_data_types/src/generated.rs L15356). -/
def t258 : Entry where
  path := "uavcan::si::unit::angle::wide_vector3_1_0::WideVector3"
  dsdl := "uavcan.si.unit.angle.WideVector3.1.0"
  role := .message
  definition := ⟨none, false, .struct [.data "radian" (.prim .float64) (.fixed 3)]⟩
  code :=
    { shape := .struct true [("radian", (.array .f64 3))]
      extentBytes := none
      sizeBits := .sum [.lit 192]
      serialize := .seq [.alignedBytes]
      deserialize := .zeroCopy }
  bytes := (24, 24)
  fields := [(true, 192, 192)]

/-- `uavcan::si::unit::angular_acceleration::vector3_1_0::Vector3` (canadensis_data_types/src/generated.rs L15455). -/
def t259 : Entry where
  path := "uavcan::si::unit::angular_acceleration::vector3_1_0::Vector3"
  dsdl := "uavcan.si.unit.angular_acceleration.Vector3.1.0"
  role := .message
  definition := ⟨none, false, .struct [.data "radian_per_second_per_second" (.prim .float32) (.fixed 3)]⟩
  code :=
    { shape := .struct true [("radian_per_second_per_second", (.array .f32 3))]
      extentBytes := none
      sizeBits := .sum [.lit 96]
      serialize := .seq [.alignedBytes]
      deserialize := .zeroCopy }
  bytes := (12, 12)
  fields := [(true, 96, 96)]

/-- `uavcan::si::unit::duration::wide_scalar_1_0::WideScalar` (canadensis_data_types/src/generated.rs L15650). -/
def t260 : Entry where
  path := "uavcan::si::unit::duration::wide_scalar_1_0::WideScalar"
  dsdl := "uavcan.si.unit.duration.WideScalar.1.0"
  role := .message
  definition := ⟨none, false, .struct [.data "second" (.prim .float64) .scalar]⟩
  code :=
    { shape := .struct true [("second", (.one .f64))]
      extentBytes := none
      sizeBits := .sum [.lit 64]
      serialize := .seq [.alignedBytes]
      deserialize := .zeroCopy }
  bytes := (8, 8)
  fields := [(true, 64, 64)]

/-- `uavcan::si::unit::force::vector3_1_0::Vector3` (canadensis_data_types/src/generated.rs L15893). -/
def t261 : Entry where
  path := "uavcan::si::unit::force::vector3_1_0::Vector3"
  dsdl := "uavcan.si.unit.force.Vector3.1.0"
  role := .message
  definition := ⟨none, false, .struct [.data "newton" (.prim .float32) (.fixed 3)]⟩
  code :=
    { shape := .struct true [("newton", (.array .f32 3))]
      extentBytes := none
      sizeBits := .sum [.lit 96]
      serialize := .seq [.alignedBytes]
      deserialize := .zeroCopy }
  bytes := (12, 12)
  fields := [(true, 96, 96)]

/-- `uavcan::si::unit::length::narrow_scalar_1_0::NarrowScalar` (canadensis_data_types/src/generated.rs L15991). -/
def t262 : Entry where
  path := "uavcan::si::unit::length::narrow_scalar_1_0::NarrowScalar"
  dsdl := "uavcan.si.unit.length.NarrowScalar.1.0"
  role := .message
  definition := ⟨none, false, .struct [.data "meter" (.prim .float16) .scalar]⟩
  code :=
    { shape := .struct true [("meter", (.one .f16))]
      extentBytes := none
      sizeBits := .sum [.lit 16]
      serialize := .seq [.alignedBytes]
      deserialize := .zeroCopy }
  bytes := (2, 2)
  fields := [(true, 16, 16)]

/-- `uavcan::si::unit::length::narrow_vector3_1_0::NarrowVector3` (canadensis_data_types/src/generated.rs L16038). -/
def t263 : Entry where
  path := "uavcan::si::unit::length::narrow_vector3_1_0::NarrowVector3"
  dsdl := "uavcan.si.unit.length.NarrowVector3.1.0"
  role := .message
  definition := ⟨none, false, .struct [.data "meter" (.prim .float16) (.fixed 3)]⟩
  code :=
    { shape := .struct true [("meter", (.array .f16 3))]
      extentBytes := none
      sizeBits := .sum [.lit 48]
      serialize := .seq [.alignedBytes]
      deserialize := .zeroCopy }
  bytes := (6, 6)
  fields := [(true, 48, 48)]

/-- `uavcan::si::unit::length::vector3_1_0::Vector3` (canadensis_data_types/src/generated.rs L16132). -/
def t264 : Entry where
  path := "uavcan::si::unit::length::vector3_1_0::Vector3"
  dsdl := "uavcan.si.unit.length.Vector3.1.0"
  role := .message
  definition := ⟨none, false, .struct [.data "meter" (.prim .float32) (.fixed 3)]⟩
  code :=
    { shape := .struct true [("meter", (.array .f32 3))]
      extentBytes := none
      sizeBits := .sum [.lit 96]
      serialize := .seq [.alignedBytes]
      deserialize := .zeroCopy }
  bytes := (12, 12)
  fields := [(true, 96, 96)]

/-- `uavcan::si::unit::luminance::scalar_1_0::Scalar` (canadensis_data_types/src/generated.rs L16275). -/
def t265 : Entry where
  path := "uavcan::si::unit::luminance::scalar_1_0::Scalar"
  dsdl := "uavcan.si.unit.luminance.Scalar.1.0"
  role := .message
  definition := ⟨none, false, .struct [.data "candela_per_square_meter" (.prim .float32) .scalar]⟩
  code :=
    { shape := .struct true [("candela_per_square_meter", (.one .f32))]
      extentBytes := none
      sizeBits := .sum [.lit 32]
      serialize := .seq [.alignedBytes]
      deserialize := .zeroCopy }
  bytes := (4, 4)
  fields := [(true, 32, 32)]

/-- `uavcan::si::unit::magnetic_field_strength::scalar_1_0::Scalar` (canadensis_data_types/src/generated.rs L16329). -/
def t266 : Entry where
  path := "uavcan::si::unit::magnetic_field_strength::scalar_1_0::Scalar"
  dsdl := "uavcan.si.unit.magnetic_field_strength.Scalar.1.0"
  role := .message
  definition := ⟨none, false, .struct [.data "tesla" (.prim .float32) .scalar]⟩
  code :=
    { shape := .struct true [("tesla", (.one .f32))]
      extentBytes := none
      sizeBits := .sum [.lit 32]
      serialize := .seq [.alignedBytes]
      deserialize := .zeroCopy }
  bytes := (4, 4)
  fields := [(true, 32, 32)]

/-- `uavcan::si::unit::magnetic_field_strength::scalar_1_1::Scalar` (canadensis_data_types/src/generated.rs L16381). -/
def t267 : Entry where
  path := "uavcan::si::unit::magnetic_field_strength::scalar_1_1::Scalar"
  dsdl := "uavcan.si.unit.magnetic_field_strength.Scalar.1.1"
  role := .message
  definition := ⟨none, false, .struct [.data "ampere_per_meter" (.prim .float32) .scalar]⟩
  code :=
    { shape := .struct true [("ampere_per_meter", (.one .f32))]
      extentBytes := none
      sizeBits := .sum [.lit 32]
      serialize := .seq [.alignedBytes]
      deserialize := .zeroCopy }
  bytes := (4, 4)
  fields := [(true, 32, 32)]

/-- `uavcan::si::unit::magnetic_field_strength::vector3_1_0::Vector3` (canadensis_data_types/src/generated.rs L16430). -/
def t268 : Entry where
  path := "uavcan::si::unit::magnetic_field_strength::vector3_1_0::Vector3"
  dsdl := "uavcan.si.unit.magnetic_field_strength.Vector3.1.0"
  role := .message
  definition := ⟨none, false, .struct [.data "tesla" (.prim .float32) (.fixed 3)]⟩
  code :=
    { shape := .struct true [("tesla", (.array .f32 3))]
      extentBytes := none
      sizeBits := .sum [.lit 96]
      serialize := .seq [.alignedBytes]
      deserialize := .zeroCopy }
  bytes := (12, 12)
  fields := [(true, 96, 96)]

/-- `uavcan::si::unit::magnetic_field_strength::vector3_1_1::Vector3` (canadensis_data_types/src/generated.rs L16482). -/
def t269 : Entry where
  path := "uavcan::si::unit::magnetic_field_strength::vector3_1_1::Vector3"
  dsdl := "uavcan.si.unit.magnetic_field_strength.Vector3.1.1"
  role := .message
  definition := ⟨none, false, .struct [.data "ampere_per_meter" (.prim .float32) (.fixed 3)]⟩
  code :=
    { shape := .struct true [("ampere_per_meter", (.array .f32 3))]
      extentBytes := none
      sizeBits := .sum [.lit 96]
      serialize := .seq [.alignedBytes]
      deserialize := .zeroCopy }
  bytes := (12, 12)
  fields := [(true, 96, 96)]

/-- `uavcan::si::unit::magnetic_flux_density::scalar_1_0::Scalar` (canadensis_data_types/src/generated.rs L16531). -/
def t270 : Entry where
  path := "uavcan::si::unit::magnetic_flux_density::scalar_1_0::Scalar"
  dsdl := "uavcan.si.unit.magnetic_flux_density.Scalar.1.0"
  role := .message
  definition := ⟨none, false, .struct [.data "tesla" (.prim .float32) .scalar]⟩
  code :=
    { shape := .struct true [("tesla", (.one .f32))]
      extentBytes := none
      sizeBits := .sum [.lit 32]
      serialize := .seq [.alignedBytes]
      deserialize := .zeroCopy }
  bytes := (4, 4)
  fields := [(true, 32, 32)]

/-- `uavcan::si::unit::magnetic_flux_density::vector3_1_0::Vector3` (canadensis_data_types/src/generated.rs L16578). -/
def t271 : Entry where
  path := "uavcan::si::unit::magnetic_flux_density::vector3_1_0::Vector3"
  dsdl := "uavcan.si.unit.magnetic_flux_density.Vector3.1.0"
  role := .message
  definition := ⟨none, false, .struct [.data "tesla" (.prim .float32) (.fixed 3)]⟩
  code :=
    { shape := .struct true [("tesla", (.array .f32 3))]
      extentBytes := none
      sizeBits := .sum [.lit 96]
      serialize := .seq [.alignedBytes]
      deserialize := .zeroCopy }
  bytes := (12, 12)
  fields := [(true, 96, 96)]

/-- `uavcan::si::unit::torque::vector3_1_0::Vector3` (canadensis_data_types/src/generated.rs L16870). -/
def t272 : Entry where
  path := "uavcan::si::unit::torque::vector3_1_0::Vector3"
  dsdl := "uavcan.si.unit.torque.Vector3.1.0"
  role := .message
  definition := ⟨none, false, .struct [.data "newton_meter" (.prim .float32) (.fixed 3)]⟩
  code :=
    { shape := .struct true [("newton_meter", (.array .f32 3))]
      extentBytes := none
      sizeBits := .sum [.lit 96]
      serialize := .seq [.alignedBytes]
      deserialize := .zeroCopy }
  bytes := (12, 12)
  fields := [(true, 96, 96)]

/-- `uavcan::si::unit::volume::scalar_1_0::Scalar` (canadensis_data_types/src/generated.rs L17064). -/
def t273 : Entry where
  path := "uavcan::si::unit::volume::scalar_1_0::Scalar"
  dsdl := "uavcan.si.unit.volume.Scalar.1.0"
  role := .message
  definition := ⟨none, false, .struct [.data "cubic_meter" (.prim .float32) .scalar]⟩
  code :=
    { shape := .struct true [("cubic_meter", (.one .f32))]
      extentBytes := none
      sizeBits := .sum [.lit 32]
      serialize := .seq [.alignedBytes]
      deserialize := .zeroCopy }
  bytes := (4, 4)
  fields := [(true, 32, 32)]

/-- `uavcan::si::unit::volumetric_flow_rate::scalar_1_0::Scalar` (canadensis_data_types/src/generated.rs L17113). -/
def t274 : Entry where
  path := "uavcan::si::unit::volumetric_flow_rate::scalar_1_0::Scalar"
  dsdl := "uavcan.si.unit.volumetric_flow_rate.Scalar.1.0"
  role := .message
  definition := ⟨none, false, .struct [.data "cubic_meter_per_second" (.prim .float32) .scalar]⟩
  code :=
    { shape := .struct true [("cubic_meter_per_second", (.one .f32))]
      extentBytes := none
      sizeBits := .sum [.lit 32]
      serialize := .seq [.alignedBytes]
      deserialize := .zeroCopy }
  bytes := (4, 4)
  fields := [(true, 32, 32)]

/-- `uavcan::time::get_synchronization_master_info_0_1::GetSynchronizationMasterInfoRequest` (canadensis_data_types/src/generated.rs L17171). -/
def t275 : Entry where
  path := "uavcan::time::get_synchronization_master_info_0_1::GetSynchronizationMasterInfoRequest"
  dsdl := "uavcan.time.GetSynchronizationMasterInfo.0.1"
  role := .request
  definition := ⟨(some 384), true, .struct []⟩
  code :=
    { shape := .struct true []
      extentBytes := some 48
      sizeBits := .sum [.lit 0]
      serialize := .seq [.alignedBytes]
      deserialize := .zeroCopy }
  bytes := (0, 0)
  fields := []

/-- `uavcan::time::time_system_0_1::TimeSystem` (canadensis_data_types/src/generated.rs L17451). -/
def t276 : Entry where
  path := "uavcan::time::time_system_0_1::TimeSystem"
  dsdl := "uavcan.time.TimeSystem.0.1"
  role := .message
  definition := ⟨none, false, .struct [.data "value" (.prim (.uint 4 false)) .scalar]⟩
  code :=
    { shape := .struct false [("value", (.one (.unsigned 8)))]
      extentBytes := none
      sizeBits := .sum [.lit 8]
      serialize := .seq [.write 4 (.get (.self "value"))]
      deserialize := .struct [⟨"value", [], .one (.num 4)⟩] }
  bytes := (1, 1)
  fields := [(true, 4, 4)]

/-- `uavcan::time::tai_info_0_1::TAIInfo` (canadensis_data_types/src/generated.rs L17396). -/
def t277 : Entry where
  path := "uavcan::time::tai_info_0_1::TAIInfo"
  dsdl := "uavcan.time.TAIInfo.0.1"
  role := .message
  definition := ⟨none, false, .struct [.data "difference_tai_minus_utc" (.prim (.uint 10 true)) .scalar]⟩
  code :=
    { shape := .struct false [("difference_tai_minus_utc", (.one (.unsigned 16)))]
      extentBytes := none
      sizeBits := .sum [.lit 16]
      serialize := .seq [.write 10 (.get (.self "difference_tai_minus_utc"))]
      deserialize := .struct [⟨"difference_tai_minus_utc", [], .one (.num 10)⟩] }
  bytes := (2, 2)
  fields := [(true, 10, 10)]

/-- `uavcan::time::get_synchronization_master_info_0_1::GetSynchronizationMasterInfoResponse` (canadensis_data_types/src/generated.rs L17214). -/
def t278 : Entry where
  path := "uavcan::time::get_synchronization_master_info_0_1::GetSynchronizationMasterInfoResponse"
  dsdl := "uavcan.time.GetSynchronizationMasterInfo.0.1"
  role := .response
  definition := ⟨(some 1536), false, .struct [.data "error_variance" (.prim .float32) .scalar, .data "time_system" (.type 276) .scalar, .data "tai_info" (.type 277) .scalar]⟩
  code :=
    { shape := .struct false [("error_variance", (.one .f32)), ("time_system", (.one (.type 276))), ("tai_info", (.one (.type 277)))]
      extentBytes := some 192
      sizeBits := .sum [.lit 56]
      serialize := .seq [.writeF32 (.self "error_variance"), .writeComposite (.self "time_system"), .writeComposite (.self "tai_info")]
      deserialize := .struct [⟨"error_variance", [], .one .f32⟩, ⟨"time_system", [], .one .composite⟩, ⟨"tai_info", [], .one .composite⟩] }
  bytes := (7, 7)
  fields := [(true, 32, 32), (true, 8, 8), (true, 16, 16)]

/-- `uavcan::time::synchronization_1_0::Synchronization` (canadensis_data_types/src/generated.rs L17286). -/
def t279 : Entry where
  path := "uavcan::time::synchronization_1_0::Synchronization"
  dsdl := "uavcan.time.Synchronization.1.0"
  role := .message
  definition := ⟨none, false, .struct [.data "previous_transmission_timestamp_microsecond" (.prim (.uint 56 false)) .scalar]⟩
  code :=
    { shape := .struct false [("previous_transmission_timestamp_microsecond", (.one (.unsigned 64)))]
      extentBytes := none
      sizeBits := .sum [.lit 56]
      serialize := .seq [.write 56 (.get (.self "previous_transmission_timestamp_microsecond"))]
      deserialize := .struct [⟨"previous_transmission_timestamp_microsecond", [], .one (.num 56)⟩] }
  bytes := (7, 7)
  fields := [(true, 56, 56)]

/-- The types (canadensis_data_types/src/generated.rs). -/
def shipped : List Entry := [
  t0, t1, t2, t3, t4, t5, t6, t7, t8, t9, t10, t11, t12, t13, t14, t15, t16, t17, t18, t19,
  t20, t21, t22, t23, t24, t25, t26, t27, t28, t29, t30, t31, t32, t33, t34, t35, t36, t37, t38, t39,
  t40, t41, t42, t43, t44, t45, t46, t47, t48, t49, t50, t51, t52, t53, t54, t55, t56, t57, t58, t59,
  t60, t61, t62, t63, t64, t65, t66, t67, t68, t69, t70, t71, t72, t73, t74, t75, t76, t77, t78, t79,
  t80, t81, t82, t83, t84, t85, t86, t87, t88, t89, t90, t91, t92, t93, t94, t95, t96, t97, t98, t99,
  t100, t101, t102, t103, t104, t105, t106, t107, t108, t109, t110, t111, t112, t113, t114, t115, t116, t117, t118, t119,
  t120, t121, t122, t123, t124, t125, t126, t127, t128, t129, t130, t131, t132, t133, t134, t135, t136, t137, t138, t139,
  t140, t141, t142, t143, t144, t145, t146, t147, t148, t149, t150, t151, t152, t153, t154, t155, t156, t157, t158, t159,
  t160, t161, t162, t163, t164, t165, t166, t167, t168, t169, t170, t171, t172, t173, t174, t175, t176, t177, t178, t179,
  t180, t181, t182, t183, t184, t185, t186, t187, t188, t189, t190, t191, t192, t193, t194, t195, t196, t197, t198, t199,
  t200, t201, t202, t203, t204, t205, t206, t207, t208, t209, t210, t211, t212, t213, t214, t215, t216, t217, t218, t219,
  t220, t221, t222, t223, t224, t225, t226, t227, t228, t229, t230, t231, t232, t233, t234, t235, t236, t237, t238, t239,
  t240, t241, t242, t243, t244, t245, t246, t247, t248, t249, t250, t251, t252, t253, t254, t255, t256, t257, t258, t259,
  t260, t261, t262, t263, t264, t265, t266, t267, t268, t269, t270, t271, t272, t273, t274, t275, t276, t277, t278, t279]

/-- A constant with a fixed port ID: the module it is in, the name of the module in DSDL without the version, whether it is a service, the number in
`from_truncating`, and the types in the same module (canadensis_codegen_rust/src/lib.rs L109-127, L142-160). -/
structure Port where
  module : String
  name : String
  service : Bool
  id : Nat
  types : List Nat

/-- The fixed port IDs (canadensis_data_types/src/generated.rs). -/
def ports : List Port := [
  ⟨"uavcan::diagnostic::record_1_0", "uavcan.diagnostic.Record", false, 8184, [96]⟩,
  ⟨"uavcan::diagnostic::record_1_1", "uavcan.diagnostic.Record", false, 8184, [97]⟩,
  ⟨"uavcan::file::get_info_0_1", "uavcan.file.GetInfo", true, 405, [100, 101]⟩,
  ⟨"uavcan::file::get_info_0_2", "uavcan.file.GetInfo", true, 405, [103, 104]⟩,
  ⟨"uavcan::file::list_0_1", "uavcan.file.List", true, 406, [105, 106]⟩,
  ⟨"uavcan::file::list_0_2", "uavcan.file.List", true, 406, [107, 108]⟩,
  ⟨"uavcan::file::modify_1_0", "uavcan.file.Modify", true, 407, [109, 110]⟩,
  ⟨"uavcan::file::modify_1_1", "uavcan.file.Modify", true, 407, [111, 112]⟩,
  ⟨"uavcan::file::read_1_0", "uavcan.file.Read", true, 408, [113, 114]⟩,
  ⟨"uavcan::file::read_1_1", "uavcan.file.Read", true, 408, [115, 117]⟩,
  ⟨"uavcan::file::write_1_0", "uavcan.file.Write", true, 409, [118, 119]⟩,
  ⟨"uavcan::file::write_1_1", "uavcan.file.Write", true, 409, [120, 121]⟩,
  ⟨"uavcan::internet::udp::handle_incoming_packet_0_1", "uavcan.internet.udp.HandleIncomingPacket", true, 500, [122, 123]⟩,
  ⟨"uavcan::internet::udp::handle_incoming_packet_0_2", "uavcan.internet.udp.HandleIncomingPacket", true, 500, [124, 125]⟩,
  ⟨"uavcan::internet::udp::outgoing_packet_0_1", "uavcan.internet.udp.OutgoingPacket", false, 8174, [126]⟩,
  ⟨"uavcan::internet::udp::outgoing_packet_0_2", "uavcan.internet.udp.OutgoingPacket", false, 8174, [127]⟩,
  ⟨"uavcan::node::execute_command_1_0", "uavcan.node.ExecuteCommand", true, 435, [144, 145]⟩,
  ⟨"uavcan::node::execute_command_1_1", "uavcan.node.ExecuteCommand", true, 435, [146, 147]⟩,
  ⟨"uavcan::node::execute_command_1_2", "uavcan.node.ExecuteCommand", true, 435, [148, 149]⟩,
  ⟨"uavcan::node::execute_command_1_3", "uavcan.node.ExecuteCommand", true, 435, [150, 151]⟩,
  ⟨"uavcan::node::get_info_1_0", "uavcan.node.GetInfo", true, 430, [152, 154]⟩,
  ⟨"uavcan::node::get_transport_statistics_0_1", "uavcan.node.GetTransportStatistics", true, 434, [155, 157]⟩,
  ⟨"uavcan::node::heartbeat_1_0", "uavcan.node.Heartbeat", false, 7509, [159]⟩,
  ⟨"uavcan::node::port::list_0_1", "uavcan.node.port.List", false, 7510, [167]⟩,
  ⟨"uavcan::node::port::list_1_0", "uavcan.node.port.List", false, 7510, [170]⟩,
  ⟨"uavcan::pnp::cluster::append_entries_1_0", "uavcan.pnp.cluster.AppendEntries", true, 390, [172, 173]⟩,
  ⟨"uavcan::pnp::cluster::discovery_1_0", "uavcan.pnp.cluster.Discovery", false, 8164, [174]⟩,
  ⟨"uavcan::pnp::cluster::request_vote_1_0", "uavcan.pnp.cluster.RequestVote", true, 391, [175, 176]⟩,
  ⟨"uavcan::pnp::node_id_allocation_data_1_0", "uavcan.pnp.NodeIDAllocationData", false, 8166, [177]⟩,
  ⟨"uavcan::pnp::node_id_allocation_data_2_0", "uavcan.pnp.NodeIDAllocationData", false, 8165, [178]⟩,
  ⟨"uavcan::register::access_1_0", "uavcan.register.Access", true, 384, [206, 207]⟩,
  ⟨"uavcan::register::list_1_0", "uavcan.register.List", true, 385, [208, 209]⟩,
  ⟨"uavcan::time::get_synchronization_master_info_0_1", "uavcan.time.GetSynchronizationMasterInfo", true, 510, [275, 278]⟩,
  ⟨"uavcan::time::synchronization_1_0", "uavcan.time.Synchronization", false, 7168, [279]⟩]

end Verif.Shipped
