/-
Model of the "structure" request of src/console.c: the render helpers and the renderers for CONSOLE_STRUCTURE and
CONSOLE_DESCRIBE, and `console_process_request_raw`.

In these two modes nothing is filtered by a path, so every field is rendered (src/console.c:706-710 and 588-590).  The
renderers are written as the values they put into the answer; `describe` says which of the two modes it is.
-/
import Verif.Model.Wire

namespace Verif

/-- src/console.c:183-186 `render_type_field`. -/
def typeField (t : String) : List Wire := [.text "_type", .text t]

/-- src/console.c:188-191 `render_description_field`. -/
def descriptionField (d : String) : List Wire := [.text "description", .text d]

/-- A map of two entries, the type and the description. -/
def descLeaf (t d : String) : Wire := .map true (typeField t ++ descriptionField d)

/-- src/console.c:415-421, in `render_uint32_object`. -/
def descU32 (d : String) : Wire := descLeaf "uint32" d

/-- src/console.c:480-487, in `render_float_object`. -/
def descFloat (d : String) : Wire := descLeaf "float" d

/-- src/console.c:517-523, in `render_bool_object`. -/
def descBool (d : String) : Wire := descLeaf "bool" d

/-- src/console.c:750-766, in `render_enum_object`. -/
def descEnum (d : String) (choices : List String) : Wire :=
  .map true (typeField "string" ++ descriptionField d ++ [.text "choices", .arr false (choices.map .text)])

/-- src/console.c:640-664 `render_map_object` with a renderer that renders these fields (`descend_map_field` writes
the key). -/
def descFields (l : List (String × Wire)) : Wire := .map false (l.flatMap fun x => [.text x.1, x.2])

/-- src/console.c:849-859, 888-899 and 901-912 `render_table_axis_description`, `render_table_2d_data_description` and
`render_table_1d_data_description`. -/
def descList (t d : String) : Wire :=
  .map true (typeField t ++ descriptionField d ++ [.text "len", .num maxAxis])

/-- src/console.c:861-869 `render_table_axis`, with 814-821 of `render_table_axis_name`.  It is only called in the
mode CONSOLE_DESCRIBE. -/
def descAxis : Wire :=
  descFields [
    ("name", descLeaf "string" "axis title"),
    ("values", descList "[float]" "list of axis values")]

/-- src/console.c:937-954 `render_table_2d_object`, with 785-792 of `render_table_title`. -/
def descTable2 (describe : Bool) : Wire :=
  if describe then
    descFields [
      ("title", descLeaf "string" "table title"),
      ("horizontal-axis", descAxis),
      ("vertical-axis", descAxis),
      ("data", descList "[[float]]" "list of lists of table values")]
  else .map false (typeField "table2d")

/-- src/console.c:956-972 `render_table_1d_object`. -/
def descTable1 (describe : Bool) : Wire :=
  if describe then
    descFields [
      ("title", descLeaf "string" "table title"),
      ("horizontal-axis", descAxis),
      ("data", descList "[float]" "list of table values")]
  else .map false (typeField "table1d")

/-- src/console.c:974-995 `render_tables`. -/
def descTables (describe : Bool) : Wire :=
  descFields [
    ("ve", descTable2 describe),
    ("lambda", descTable2 describe),
    ("dwell", descTable1 describe),
    ("timing", descTable2 describe),
    ("injector_dead_time", descTable1 describe),
    ("injector_pw_correction", descTable1 describe),
    ("temp-enrich", descTable2 describe),
    ("tipin-amount", descTable2 describe),
    ("tipin-time", descTable1 describe)]

/-- src/console.c:997-1048 `render_decoder`. -/
def descDecoder : Wire :=
  descFields [
    ("offset", descFloat "offset past TDC for sync pulse"),
    ("max-variance", descFloat "inter-tooth max time variation (0-1)"),
    ("min-rpm", descU32 "minimum RPM for sync"),
    ("rpm-limit-stop", descU32 "ignition and fuel cut rpm limit"),
    ("rpm-limit-start", descU32 "rpm limit lower hysteresis"),
    ("trigger-type", descEnum "Primary trigger decoder method" ["even", "even+camsync", "missing", "missing+camsync"]),
    ("num-triggers", descU32 "number of teeth on primary wheel"),
    ("degrees-per-trigger", descFloat "angle a single tooth represents"),
    ("min-triggers-rpm", descU32 "minimum teeth required to generate rpm for even tooth wheel"),
    ("rpm-window-size", descU32 "rpm average window for even tooth wheel")]

/-- src/console.c:1050-1074 `output_console_renderer`. -/
def descOutput (describe : Bool) : Wire :=
  if describe then
    descFields [
      ("pin", descU32 "pin"),
      ("inverted", descBool "inverted"),
      ("angle", descFloat "angle past TDC to trigger event"),
      ("type", descEnum "output type" ["disabled", "fuel", "ignition"])]
  else .map false (typeField "output")

/-- src/console.c:1076-1081 `render_outputs`. -/
def descOutputs (describe : Bool) : Wire := .arr false (List.replicate maxEvents (descOutput describe))

/-- src/console.c:1110-1192 `render_sensor_object`. -/
def descSensor (describe : Bool) : Wire :=
  if describe then
    descFields [
      ("pin", descU32 "adc sensor input pin"),
      ("lag", descFloat "lag filter coefficient (0-1)"),
      ("source", descEnum "sensor data source" ["none", "adc", "freq", "pulsewidth", "const"]),
      ("method", descEnum "sensor processing method" ["linear", "linear-window", "therm"]),
      ("range-min", descFloat "min for linear mapping"),
      ("range-max", descFloat "max for linear mapping"),
      ("raw-min", descFloat "min raw input for linear mapping"),
      ("raw-max", descFloat "max raw input for linear mapping"),
      ("fixed-value", descFloat "value to hold for const input"),
      ("therm-a", descFloat "thermistor A"),
      ("therm-b", descFloat "thermistor B"),
      ("therm-c", descFloat "thermistor C"),
      ("therm-bias", descFloat "thermistor resistor bias value (ohms)"),
      ("fault-min", descFloat "Lower bound for raw sensor input"),
      ("fault-max", descFloat "Upper bound for raw sensor input"),
      ("fault-value", descFloat "Value to assume in fault condition"),
      ("window-capture-width", descU32 "Crank degrees in window to average samples over"),
      ("window-total-width", descU32 "Crank degrees per window"),
      ("window-offset", descU32 "Crank degree into window to start averagine")]
  else .map false (typeField "sensor")

/-- src/console.c:1194-1209 `render_knock_object`. -/
def descKnock : Wire :=
  descFields [
    ("frequency", descFloat "knock filter center frequency (Hz)"),
    ("threshold", descFloat "input level indicating knock")]

/-- src/console.c:1211-1221 `render_sensors`. -/
def descSensors (describe : Bool) : Wire :=
  descFields (sensorNames.map (fun n => (n, descSensor describe)) ++
    [("knock1", descKnock), ("knock2", descKnock)])

/-- src/console.c:1223-1239 `render_crank_enrich`. -/
def descCrank : Wire :=
  descFields [
    ("crank-rpm", descFloat "Upper RPM limit for crank enrich"),
    ("crank-temp", descFloat "Upper temperature (C) for crank enrich"),
    ("enrich-amt", descFloat "crank enrichment multiplier")]

/-- src/console.c:1241-1266 `render_fueling`. -/
def descFueling : Wire :=
  descFields [
    ("injector-cc", descFloat "fuel injector size cc/min"),
    ("cylinder-cc", descFloat "cylinder size in cc"),
    ("fuel-stoich-ratio", descFloat "stoich ratio of fuel to air"),
    ("injections-per-cycle", descU32 "Number of times injectors fire per cycle (batching)"),
    ("fuel-pump-pin", descU32 "GPIO pin for fuel pump control"),
    ("fuel-density", descFloat "Fuel density (g/cc) at 15C"),
    ("crank-enrich", descCrank)]

/-- src/console.c:1268-1278 `render_ignition`. -/
def descIgnition : Wire :=
  descFields [
    ("min-fire-time", descU32 "minimum wait period for coil output (uS)"),
    ("dwell-time", descFloat "dwell time for fixed-duty (uS)")]

/-- src/console.c:1280-1304 `render_boost_control`. -/
def descBoost (describe : Bool) : Wire :=
  descFields [
    ("pin", descU32 "GPIO pin for boost control output"),
    ("enable-threshold", descFloat "MAP low threshold to enable boost control"),
    ("control-threshold", descFloat "MAP low threshold to keep valve open if TPS setting is met"),
    ("control-threshold-tps", descFloat "TPS threshold for valve-wide-open mode"),
    ("overboost", descFloat "High threshold for boost cut (kpa)"),
    ("pwm", descTable1 describe)]

/-- src/console.c:1306-1318 `render_cel`. -/
def descCel : Wire :=
  descFields [
    ("pin", descU32 "GPIO pin for CEL output"),
    ("lean-boost-kpa", descFloat "Boost low threshold for lean boost warning"),
    ("lean-boost-ego", descFloat "EGO high threshold for lean boost warning")]

/-- src/console.c:1320-1345 `render_freq_object`. -/
def descFreq : Wire :=
  descFields [
    ("edge", descEnum "type of edge to trigger" ["rising", "falling", "both"]),
    ("type", descEnum "input interpretation" ["none", "freq", "trigger"])]

/-- src/console.c:1347-1352 `render_freq_list`. -/
def descFreqs : Wire := .arr false (List.replicate 4 descFreq)

/-- src/console.c:1354-1367 `render_test`. -/
def descTest : Wire :=
  descFields [
    ("event-logging", descBool "Enable event logging"),
    ("test-trigger-rpm", descU32 "Test trigger output rpm (0 to disable)")]

/-- src/console.c:1395-1398 `render_info`, with 1381-1388 of `render_version`. -/
def descInfo : Wire := descFields [("version", descLeaf "string" "ViaEMS version (RO)")]

/-- src/console.c:1400-1414 `console_toplevel_request`, in the mode CONSOLE_STRUCTURE. -/
def structureResponse : Wire :=
  descFields [
    ("decoder", descDecoder),
    ("sensors", descSensors false),
    ("outputs", descOutputs false),
    ("fueling", descFueling),
    ("ignition", descIgnition),
    ("tables", descTables false),
    ("boost-control", descBoost false),
    ("check-engine-light", descCel),
    ("freq", descFreqs),
    ("test", descTest),
    ("info", descInfo)]

/-- src/console.c:1416-1424 `console_toplevel_types`, in the mode CONSOLE_DESCRIBE. -/
def structureTypes : Wire :=
  descFields [
    ("sensor", descSensor true),
    ("output", descOutput true),
    ("table1d", descTable1 true),
    ("table2d", descTable2 true)]

/-- src/console.c:1426-1444 `console_request_structure`, before its `report_success`. -/
def structureWires : List Wire := [.text "response", structureResponse, .text "types", structureTypes]

mutual
/-- What a reader of the answer sees of it. -/
def Wire.item : Wire → Item
  | .num n => .int n
  | .flt x => .flt x
  | .bool b => .bool b
  | .null => .null
  | .text s => .text s
  | .arr d l => .arr d (Wire.items l)
  | .map _ l => .map (Wire.items l)
def Wire.items : List Wire → List Item
  | [] => []
  | w :: ws => Wire.item w :: Wire.items ws
end

/-- Whether `console_process_request` takes the request for a "structure" request (src/console.c:1513-1517). -/
def isStructure (req : List Item) : Bool :=
  match mapFind "method" req with
  | some m => itemIs m "structure"
  | none => false

/-- The answer as it is encoded: that of a "structure" request has maps with a length. -/
def answerWires (req l : List Item) : List Wire :=
  if isStructure req then
    Item.wires [.text "type", .text "response", .text "id", .int (requestId req)] ++ structureWires ++
      Item.wires (reportSuccess true)
  else Item.wires l

/-- src/console.c:1560-1589 `console_process_request_raw`, for the request with items `req`: the configuration
afterwards, the bytes written, and what else is done.  `returns` is whether `platform_reset_into_bootloader()` comes
back: it does on the hosted and test platforms (src/platforms/hosted.c:32, test.c:23), and does not on the
microcontrollers (src/platforms/stm32f4-discovery.c:758-770). -/
def rawRequest [FloatFmt] [LibM] (bits : Fl → BitVec 32) (returns : Bool) (rate : BitVec 32) (version : String)
    (req : List Item) (c : Console) : Except Fault (Console × Option (List Byte) × Effect) :=
  match processRequest rate version (Wire.items structureWires) req c with
  | .error e => .error e
  | .ok (c', l, e) =>
    .ok (c', if decide (e = .bootloader) && !returns then none else sendReply bits (answerWires req l), e)

end Verif
