import Verif.Text

/-!
# Streets

Model of `src/defaults.rs:271-814` `network`: the categories of streets, who may use them, and how the tags
of a way are read. Tags that are unknown are only logged by the code; logging is left out.
-/

namespace Verif.Osm

open Text

/-- `src/network/mod.rs:63-83` `StreetCategory`. -/
inductive Street where
  | motorway
  | motorwayLink
  | trunk
  | trunkLink
  | primary
  | primaryLink
  | secondary
  | secondaryLink
  | tertiary
  | tertiaryLink
  | unclassified
  | residential
  | livingStreet
  | service
  | track
  | road
  | cycleway
  | pedestrian
  | path
deriving DecidableEq, Repr

/-- `src/network/mod.rs:85-94` `vehicles::Category`. -/
inductive Vehicle where
  | car
  | bicycle
  | pedestrian
deriving DecidableEq, Repr

namespace Street

/-- `src/defaults.rs:287-309` `lane_count`. -/
def laneCount : Street → Nat
  | .motorway => 3
  | .motorwayLink => 1
  | .trunk => 2
  | .trunkLink => 1
  | .primary => 2
  | .primaryLink => 1
  | .secondary => 1
  | .secondaryLink => 1
  | .tertiary => 1
  | .tertiaryLink => 1
  | .unclassified => 1
  | .residential => 1
  | .livingStreet => 1
  | .service => 1
  | .track => 1
  | .road => 1
  | .cycleway => 1
  | .pedestrian => 1
  | .path => 1

/-- `src/defaults.rs:311-333` `maxspeed` in km/h. -/
def maxspeed : Street → Nat
  | .motorway => 130
  | .motorwayLink => 50
  | .trunk => 100
  | .trunkLink => 50
  | .primary => 100
  | .primaryLink => 30
  | .secondary => 70
  | .secondaryLink => 30
  | .tertiary => 70
  | .tertiaryLink => 30
  | .unclassified => 50
  | .residential => 50
  | .livingStreet => 15
  | .service => 20
  | .track => 30
  | .road => 50
  | .cycleway => 25
  | .pedestrian => 5
  | .path => 15

/-- `src/defaults.rs:343-365` `is_for_vehicles`. -/
def isForVehicles (picky : Bool) : Street → Bool
  | .motorway => true
  | .motorwayLink => true
  | .trunk => true
  | .trunkLink => true
  | .primary => true
  | .primaryLink => true
  | .secondary => true
  | .secondaryLink => true
  | .tertiary => true
  | .tertiaryLink => true
  | .unclassified => true
  | .residential => true
  | .livingStreet => true
  | .service => false
  | .track => !picky
  | .road => false
  | .cycleway => false
  | .pedestrian => false
  | .path => false

/-- `src/defaults.rs:367-389` `is_for_bicycles`. -/
def isForBicycles (picky : Bool) : Street → Bool
  | .motorway => false
  | .motorwayLink => false
  | .trunk => false
  | .trunkLink => false
  | .primary => !picky
  | .primaryLink => !picky
  | .secondary => !picky
  | .secondaryLink => !picky
  | .tertiary => true
  | .tertiaryLink => true
  | .unclassified => true
  | .residential => true
  | .livingStreet => true
  | .service => true
  | .track => !picky
  | .road => false
  | .cycleway => true
  | .pedestrian => !picky
  | .path => !picky

/-- `src/defaults.rs:391-413` `is_for_pedestrians`. -/
def isForPedestrians : Street → Bool
  | .motorway => false
  | .motorwayLink => false
  | .trunk => false
  | .trunkLink => false
  | .primary => false
  | .primaryLink => false
  | .secondary => false
  | .secondaryLink => false
  | .tertiary => false
  | .tertiaryLink => false
  | .unclassified => false
  | .residential => true
  | .livingStreet => true
  | .service => true
  | .track => true
  | .road => false
  | .cycleway => false
  | .pedestrian => true
  | .path => true

/-- `src/defaults.rs:335-341` `is_for`. -/
def isFor (s : Street) (v : Vehicle) (picky : Bool) : Bool :=
  match v with
  | .car => s.isForVehicles picky
  | .bicycle => s.isForBicycles picky
  | .pedestrian => s.isForPedestrians

/-- `src/defaults.rs:785-813` `Display`. -/
def display : Street → String
  | .motorway => "motorway"
  | .motorwayLink => "motorway_link"
  | .trunk => "trunk"
  | .trunkLink => "trunk_link"
  | .primary => "primary"
  | .primaryLink => "primary_link"
  | .secondary => "secondary"
  | .secondaryLink => "secondary_link"
  | .tertiary => "tertiary"
  | .tertiaryLink => "tertiary_link"
  | .unclassified => "unclassified"
  | .residential => "residential"
  | .livingStreet => "living_street"
  | .service => "service"
  | .track => "track"
  | .road => "road"
  | .cycleway => "cycleway"
  | .pedestrian => "pedestrian"
  | .path => "path"

end Street

/-- The value of the first entry with this key: a `match` on string literals. -/
def lookup {α : Type} (table : List (String × α)) (t : Text) : Option α :=
  (table.find? fun e => decide (e.1.toList = t)).map Prod.snd

open Street

/-- `src/defaults.rs:619-778`: the arms of `from_str`; `.error false` is an ignored tag. -/
def highwayTable : List (String × Except Bool Street) :=
  [("highway:motorway", .ok .motorway),
   ("highway:motorway_link", .ok .motorwayLink),
   ("highway:trunk", .ok .trunk),
   ("highway:trunk_link", .ok .trunkLink),
   ("highway:primary", .ok .primary),
   ("highway:primary_link", .ok .primaryLink),
   ("highway:secondary", .ok .secondary),
   ("highway:secondary_link", .ok .secondaryLink),
   ("highway:tertiary", .ok .tertiary),
   ("highway:tertiary_link", .ok .tertiaryLink),
   ("highway:traffic_calming", .ok .tertiaryLink),
   ("highway:unclassified_link", .ok .tertiaryLink),
   ("highway:give_way", .ok .unclassified),
   ("highway:unclassified", .ok .unclassified),
   ("highway:unclasified", .ok .unclassified),
   ("highway:area:residential", .ok .residential),
   ("highway:asphalt", .ok .residential),
   ("highway:junction", .ok .residential),
   ("highway:mini_roundabout", .ok .residential),
   ("highway:residential", .ok .residential),
   ("highway:living_street", .ok .livingStreet),
   ("highway:razed:service", .ok .service),
   ("highway:service;yes", .ok .service),
   ("highway:service", .ok .service),
   ("highway:sevice", .ok .service),
   ("highway:service2", .ok .service),
   ("highway:swervice", .ok .service),
   ("highway:byway", .ok .track),
   ("highway:historic", .ok .track),
   ("highway:path;unclassified", .ok .track),
   ("highway:tra#", .ok .track),
   ("highway:track", .ok .track),
   ("highway:track;path", .ok .track),
   ("highway:trank", .ok .track),
   ("highway:track; cycleway; cycleway; track; track", .ok .track),
   ("highway:4", .ok .road),
   ("highway:bridge", .ok .road),
   ("highway:fixme", .ok .road),
   ("highway:parking_aisle", .ok .road),
   ("highway:road", .ok .road),
   ("highway:yes", .ok .road),
   ("highway:cycleway", .ok .cycleway),
   ("highway:bridleway", .ok .cycleway),
   ("highway:access_ramp", .ok .pedestrian),
   ("highway:access", .ok .pedestrian),
   ("highway:alley", .ok .pedestrian),
   ("highway:corridor", .ok .pedestrian),
   ("highway:crossing", .ok .pedestrian),
   ("highway:elevator", .ok .pedestrian),
   ("highway:footpath", .ok .pedestrian),
   ("highway:footway rad frei", .ok .pedestrian),
   ("highway:footway;service", .ok .pedestrian),
   ("highway:footway", .ok .pedestrian),
   ("highway:fo", .ok .pedestrian),
   ("highway:f", .ok .pedestrian),
   ("highway:pa", .ok .pedestrian),
   ("highway:pedestrian", .ok .pedestrian),
   ("highway:private_footway", .ok .pedestrian),
   ("highway:ramp", .ok .pedestrian),
   ("highway:schoolyard", .ok .pedestrian),
   ("highway:sidewalk", .ok .pedestrian),
   ("highway:stairs", .ok .pedestrian),
   ("highway:steps", .ok .pedestrian),
   ("highway:trail", .ok .pedestrian),
   ("highway:virtual", .ok .pedestrian),
   ("highway:vitrual", .ok .pedestrian),
   ("highway:yes;footway", .ok .pedestrian),
   ("highway:informal_path", .ok .path),
   ("highway:ladder", .ok .path),
   ("highway:path---", .ok .path),
   ("highway:path;steps", .ok .path),
   ("highway:path", .ok .path),
   ("highway:path/cycleway", .ok .path),
   ("highway:pathless", .ok .path),
   ("highway:85", .error false),
   ("highway:abondoned", .error false),
   ("highway:abandoned:highway", .error false),
   ("highway:abandoned:path", .error false),
   ("highway:abandoned:service", .error false),
   ("highway:abandoned", .error false),
   ("highway:bus_guideway", .error false),
   ("highway:bus_stop", .error false),
   ("highway:bus", .error false),
   ("highway:busway", .error false),
   ("highway:centre_line", .error false),
   ("highway:climbing_access", .error false),
   ("highway:common", .error false),
   ("highway:under construction", .error false),
   ("highway:construction", .error false),
   ("highway:constuction", .error false),
   ("highway:demolished", .error false),
   ("highway:dismantled", .error false),
   ("highway:disused:track", .error false),
   ("highway:disused", .error false),
   ("highway:duckboards", .error false),
   ("highway:emergency_access_point", .error false),
   ("highway:emergency_bay", .error false),
   ("highway:escalator", .error false),
   ("highway:escape", .error false),
   ("highway:foot", .error false),
   ("highway:fuel", .error false),
   ("highway:in planung", .error false),
   ("highway:island", .error false),
   ("highway:layby", .error false),
   ("highway:loading_place", .error false),
   ("highway:lohwiese", .error false),
   ("highway:never_built", .error false),
   ("highway:nicht mehr in benutzung", .error false),
   ("highway:no", .error false),
   ("highway:none", .error false),
   ("highway:p", .error false),
   ("highway:passing_place", .error false),
   ("highway:piste", .error false),
   ("highway:place", .error false),
   ("highway:planned", .error false),
   ("highway:platform", .error false),
   ("highway:private", .error false),
   ("highway:project", .error false),
   ("highway:projected", .error false),
   ("highway:proposed", .error false),
   ("highway:raceway", .error false),
   ("highway:razed", .error false),
   ("highway:removed", .error false),
   ("highway:rest_area", .error false),
   ("highway:ser", .error false),
   ("highway:sere", .error false),
   ("highway:services", .error false),
   ("highway:stop_line", .error false),
   ("highway:stop", .error false),
   ("highway:street_lamp", .error false),
   ("highway:tidal_path", .error false),
   ("highway:traffic_island", .error false),
   ("highway:traffic_signals", .error false),
   ("highway:turning_circle", .error false),
   ("highway:turning_loop", .error false),
   ("highway:unused", .error false),
   ("highway:via_ferrata", .error false),
   ("highway:virtual_rail", .error false)]

/-- `src/defaults.rs:613-783` `from_str`; `.error true` is an unknown tag. -/
def parseStreet (s : Text) : Except Bool Street :=
  (lookup highwayTable (lower (trim s))).getD (.error true)

/-- The tags of a way (`osmpbfreader::Tags`, a map): the first entry of a key counts. -/
abbrev Tags := List (Text × Text)

/-- `way.tags.get(key)`. -/
def Tags.get (tags : Tags) (key : String) : Option Text :=
  (tags.find? fun e => decide (e.1 = key.toList)).map Prod.snd

/-- `src/defaults.rs:415-432` `StreetCategory::from`. -/
def streetOf (tags : Tags) : Option Street :=
  (tags.get "highway").bind fun v =>
    match parseStreet ("highway:".toList ++ v) with
    | .ok s => some s
    | .error _ => none

/-- `src/defaults.rs:434-437` `parse_lane_count`. -/
def parseLaneCount (s : Street) (_ : Tags) : Nat := s.laneCount

/-- `src/defaults.rs:25` `MIN_KMH`. -/
def minKmh : Nat := 5

/-- `src/defaults.rs:452-545`: the arms of `parse_maxspeed`; `none` is the default of the street. -/
def maxspeedTable : List (String × Option Nat) :=
  [("de:motorway", some (maxspeed .motorway)),
   ("100, 70", some 100),
   ("100; 50", some 100),
   ("100;70;50", some 100),
   ("100;70", some 100),
   ("100;80", some 100),
   ("100|70", some 100),
   ("50; 100", some 100),
   ("50;100", some 100),
   ("60 mph", some 100),
   ("50 mph", some 80),
   ("60;80", some 80),
   ("80;60", some 80),
   ("70; 50", some 70),
   ("50;70", some 70),
   ("50; 70", some 70),
   ("40 mph", some 70),
   ("60;50", some 60),
   ("20; 50", some 50),
   ("30 mph", some 50),
   ("30,50", some 50),
   ("30; 50", some 50),
   ("30;50", some 50),
   ("50; 30", some 50),
   ("50;30", some 50),
   ("50b", some 50),
   ("5ß", some 50),
   ("de:urban", some 50),
   ("maxspeed=50", some 50),
   ("20 mph", some 30),
   ("30 @ (mo-fr 06:00-18:00)", some 30),
   ("30 kph", some 30),
   ("30;10", some 30),
   ("30; 40", some 30),
   ("3ß", some 30),
   ("conditional=30 @ (mo-fr 06:00-22:00)", some 30),
   ("de:zone:30", some 30),
   ("de:zone30", some 30),
   ("zone:maxspeed=de:30", some 30),
   ("15 mph", some 25),
   ("2ß", some 20),
   ("de:bicycle_road", some (maxspeed .cycleway)),
   ("10 mph", some (maxspeed .livingStreet)),
   ("10#", some (maxspeed .livingStreet)),
   ("1ß", some (maxspeed .livingStreet)),
   ("3 mph", some (maxspeed .livingStreet)),
   ("4-6", some (maxspeed .livingStreet)),
   ("4-7", some (maxspeed .livingStreet)),
   ("5 mph", some (maxspeed .livingStreet)),
   ("6 km/h", some (maxspeed .livingStreet)),
   ("6,5", some (maxspeed .livingStreet)),
   ("7-10", some (maxspeed .livingStreet)),
   ("de:living_street", some (maxspeed .livingStreet)),
   ("de:walk", some (maxspeed .livingStreet)),
   ("schrittgeschwindigkeit", some (maxspeed .livingStreet)),
   ("walk", some (maxspeed .livingStreet)),
   ("*", none),
   ("20:forward", none),
   ("30+", none),
   ("at:rural", none),
   ("at:urban", none),
   ("cz:urban", none),
   ("de:274.1[30]", none),
   ("de:rural", none),
   ("de", none),
   ("fixme:höchster üblicher wert", none),
   ("hgv=30", none),
   ("nome", none),
   ("none", none),
   ("posted time dependent", none),
   ("signal", none),
   ("signals", none),
   ("variable", none)]

/-- `src/defaults.rs:439-561` `parse_maxspeed` in km/h. -/
def parseMaxspeed (s : Street) (tags : Tags) : Nat :=
  match tags.get "maxspeed" with
  | none => s.maxspeed
  | some snippet =>
    match parseNat maxU16 snippet with
    | some n => max minKmh n
    | none => ((lookup maxspeedTable (lower (trim snippet))).getD none).getD s.maxspeed

/-- `src/defaults.rs:571-597`: the arms of `parse_oneway`. -/
def onewayTable : List (String × (Bool × Bool)) :=
  [("1", (true, false)),
   ("left;through", (true, false)),
   ("motor_vehicle", (true, false)),
   ("recommended", (true, false)),
   ("shelter", (true, false)),
   ("use_sidepath", (true, false)),
   ("yes + oneway:bicycle=no", (true, false)),
   ("yes", (true, false)),
   ("´-1", (true, true)),
   ("-1", (true, true)),
   ("-1;no", (true, true)),
   ("alternating", (false, false)),
   ("bicycle", (false, false)),
   ("cycle_barrier", (false, false)),
   ("fixme", (false, false)),
   ("no", (false, false)),
   ("reversible", (false, false)),
   ("undefined", (false, false)),
   ("unknown", (false, false)),
   ("yes @ (2018 aug 0 - 2018 dec 21)", (false, false)),
   ("yes;no", (false, false))]

/-- `src/defaults.rs:564-610` `parse_oneway`: is it a oneway, and is it reversed? -/
def parseOneway (tags : Tags) : Bool × Bool :=
  match tags.get "oneway" with
  | some v => (lookup onewayTable (lower (trim v))).getD (false, false)
  | none => (false, false)

end Verif.Osm
