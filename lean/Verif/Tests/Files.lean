import Verif.Props.Main
/-!
# The texts of the sample configuration files

In `sampleFile` and `otherFile` they are given byte by byte, which is much easier on the kernel.
-/

namespace Elk.Props

open Elk

/-- The text of the sample file. -/
theorem sampleFile_text : sampleFile = bs "{
  \"elk\": {
    \"serialNumber\": \"42\",
    \"code\": 1234,
    \"hostPort\": \"elk:2101\",
    \"areas\": {\"1\": {\"name\": \"h\\u006fme\"}},
    \"zones\": {
      \"1\": {\"name\": \"door\", \"binarySensorDeviceClass\": \"door\"},
      \"2\": {\"binarySensorDeviceClass\": \"motion\", \"color\": [-3e1, false], \"name\": \"hall\"}
    }
  },
  \"mqtt\": {\"host\": \"broker\", \"haDiscoveryPrefix\": \"homeassistant\", \"topicPrefix\": null}
}
" := by
  decide +kernel

/-- The text of the other file. -/
theorem otherFile_text : otherFile = bs "{
  \"elk\": {
    \"serialNumber\": \"42\",
    \"code\": 1234,
    \"hostPort\": \"elk:2101\",
    \"areas\": {\"2\": {\"name\": \"shed\"}},
    \"zones\": {\"1\": {\"name\": \"door\", \"binarySensorDeviceClass\": \"door\"}}
  },
  \"mqtt\": {\"host\": \"broker\", \"haDiscoveryPrefix\": \"homeassistant\"}
}
" := by
  decide +kernel

end Elk.Props
